import Verif.Lemmas.Tally
import Verif.Lemmas.RawMom2

/-!
# C87: the number of operations of the moments

The functions of `internal/moments.hpp` are run on numbers which count the operations spent on them (`Verif/Spec/Tally.lean`).  With `n`
variables the four moments take between a constant times `n`, `n²`, `n³`, `n⁴` operations and another constant times the same, and the
covariance a constant times the product of the numbers of variables, whatever is stored: also for values without second derivatives.
-/

namespace Unc.Props
open Unc Unc.Spec HessGrad SMap Mom TallyOps

section
variable {R : Type*} [Zero R] [Add R] [Sub R] [Mul R] [NatCast R]

theorem card_vars {S : Type*} {hg : HessGrad S} (hv : hg.Valid) : hg.vars.card = hg.diagmap.length := by
  unfold HessGrad.vars
  rw [List.toFinset_card_of_nodup (Sorted.nodup hv.dsorted)]; simp [keys]

theorem start_len (hg : HessGrad R) : (Tally.start hg).diagmap.length = hg.diagmap.length ∧ (Tally.start hg).trimap.length = hg.trimap.length := by
  simp [Tally.start]

theorem start_eq (hg : HessGrad R) : Tally.start hg = mapHG Tally.free hg := rfl

theorem start_valid {hg : HessGrad R} (hv : hg.Valid) : (Tally.start hg).Valid := valid_mapHG _ hv

theorem start_val (hg : HessGrad R) : mapHG Tally.val (Tally.start hg) = hg := val_free hg

/-- the map which forgets all of the values -/
theorem unit_hom : OpHom (fun _ : R => (PUnit.unit : PUnit.{1})) := ⟨rfl, fun _ _ => rfl, fun _ _ => rfl, fun _ _ => rfl, fun _ => rfl⟩

theorem m3_some {hg : HessGrad R} (hv : hg.Valid) : ∃ m, m3 hg = some m := by
  have h := m3_hom (S := PUnit.{1}) unit_hom hg
  rw [raw3 (R := PUnit.{1}) (valid_mapHG _ hv)] at h
  obtain ⟨m, hm, -⟩ := Option.map_eq_some_iff.1 h.symm
  exact ⟨m, hm⟩

theorem c2_some {a b : HessGrad R} (ha : a.Valid) (hb : b.Valid) : ∃ m, c2 a b = some m := by
  have h := c2_hom (S := PUnit.{1}) unit_hom a b
  rw [rawc2 (R := PUnit.{1}) (valid_mapHG _ ha) (valid_mapHG _ hb) (fun _ _ => PUnit.unit) (fun _ => rfl) (fun _ => rfl) (fun _ _ _ => ⟨rfl, rfl⟩)] at h
  obtain ⟨m, hm, -⟩ := Option.map_eq_some_iff.1 h.symm
  exact ⟨m, hm⟩

/-- **C87** the mean: one addition for each variable -/
theorem C87_m1 {hg : HessGrad R} (hv : hg.Valid) : (m1 (Tally.start hg)).val = m1 hg ∧ (m1 (Tally.start hg)).ops = hg.vars.card := by
  refine ⟨?_, ?_⟩
  · rw [← m1_hom val_hom, start_val]
  · rw [start_eq, m1_ops (hfree hg), ← start_eq, (start_len hg).1, card_vars hv]

/-- **C87** the second moment with `n` variables: `3 n² + 6 n` operations, whatever is stored -/
theorem C87_m2 {hg : HessGrad R} (hv : hg.Valid) :
    ∃ m, m2 (Tally.start hg) = some m ∧ m2 hg = some m.val ∧ m.ops = 3 * hg.vars.card ^ 2 + 6 * hg.vars.card := by
  obtain ⟨m, hm⟩ : ∃ m, m2 (Tally.start hg) = some m := by rw [m2, triEntries_full _ (start_valid hv)]; exact ⟨_, rfl⟩
  refine ⟨m, hm, ?_, ?_⟩
  · have := m2_hom val_hom (Tally.start hg)
    rwa [start_val, hm] at this
  · rw [m2_ops (start_valid hv) (hfree hg) hm, (start_len hg).1, card_vars hv, Nat.choose_two_right]
    have h := Nat.div_mul_cancel (Nat.even_mul_pred_self hg.diagmap.length).two_dvd
    generalize hg.diagmap.length * (hg.diagmap.length - 1) / 2 = q at *
    generalize hg.diagmap.length = n at *
    cases n with
    | zero => simp at *; omega
    | succ k =>
      simp only [Nat.add_sub_cancel] at h
      nlinarith

/-- **C87** the third moment with `n` variables and `t` stored off-diagonal elements: at least one product for each three variables -/
theorem C87_m3 {hg : HessGrad R} (hv : hg.Valid) :
    ∃ m, m3 (Tally.start hg) = some m ∧ m3 hg = some m.val ∧ 4 * hg.vars.card.choose 3 ≤ m.ops ∧
      m.ops ≤ 4 * hg.vars.card ^ 3 + 28 * hg.vars.card ^ 2 + 18 * hg.vars.card + hg.trimap.length * (8 * hg.vars.card + 46) := by
  obtain ⟨m, hm⟩ := m3_some (start_valid hv)
  have h := m3_ops (start_valid hv) (hfree hg) hm
  rw [(start_len hg).1, (start_len hg).2, cost3] at h
  refine ⟨m, hm, ?_, ?_⟩
  · have := m3_hom val_hom (Tally.start hg)
    rwa [start_val, hm] at this
  · rw [card_vars hv]
    exact ⟨h.1, h.2.trans (le_of_eq (by ring))⟩

/-- **C87** the fourth moment with `n` variables and `t` stored off-diagonal elements: at least one product for each variable and three
others -/
theorem C87_m4 {hg : HessGrad R} (hv : hg.Valid) :
    ∃ m, m4 (Tally.start hg) = some m ∧ m4 hg = some m.val ∧ 5 * hg.vars.card * (hg.vars.card - 1).choose 3 ≤ m.ops ∧
      m.ops ≤ 5 * hg.vars.card ^ 4 + 22 * hg.vars.card ^ 3 + 62 * hg.vars.card ^ 2 + 28 * hg.vars.card +
        hg.trimap.length * (10 * hg.vars.card ^ 2 + 184 * hg.vars.card + 177) + 15 * hg.trimap.length ^ 2 := by
  obtain ⟨m, hm⟩ : ∃ m, m4 (Tally.start hg) = some m := by rw [m4, triEntries_skip _ (start_valid hv)]; exact ⟨_, rfl⟩
  have h := m4_ops (start_valid hv) (hfree hg) hm
  rw [(start_len hg).1, (start_len hg).2, cost4] at h
  refine ⟨m, hm, ?_, ?_⟩
  · have := m4_hom val_hom (Tally.start hg)
    rwa [start_val, hm] at this
  · rw [card_vars hv]
    exact ⟨h.1, h.2.trans (le_of_eq (by ring))⟩

/-- **C87** the covariance: with `n` and `n'` variables, of which `c` in common, and `t` pairs stored by both, `2 n n' + 9 c + 3 t`
operations -/
theorem C87_cov {a b : HessGrad R} (ha : a.Valid) (hb : b.Valid) :
    ∃ m, c2 (Tally.start a) (Tally.start b) = some m ∧ c2 a b = some m.val ∧
      m.ops = 2 * (a.vars.card * b.vars.card) + 9 * (a.vars ∩ b.vars).card + 3 * ((keys a.trimap).toFinset ∩ (keys b.trimap).toFinset).card := by
  obtain ⟨m, hm⟩ := c2_some (start_valid ha) (start_valid hb)
  refine ⟨m, hm, ?_, ?_⟩
  · have := c2_hom val_hom (Tally.start a) (Tally.start b)
    rwa [start_val, start_val, hm] at this
  · rw [c2_ops (start_valid ha) (start_valid hb) (hfree a) (hfree b) hm, (start_len a).1, (start_len b).1, card_vars ha, card_vars hb, start_eq, start_eq,
      vars_mapHG, vars_mapHG]
    have : ∀ hg : HessGrad R, keys (mapHG Tally.free hg).trimap = keys hg.trimap := fun hg => by simp [mapHG, keys, mapVal, Function.comp_def]
    rw [this, this]
    omega

theorem stored_le {hg : HessGrad R} (hv : hg.Valid) : 2 * hg.trimap.length ≤ hg.vars.card ^ 2 := by
  have := tri_size (x := (⟨hg, 0⟩ : UReal2 R)) hv
  simp only at this
  rw [card_vars hv, pow_two]
  rw [Nat.choose_two_right] at this
  have h2 := Nat.div_mul_le_self (hg.diagmap.length * (hg.diagmap.length - 1)) 2
  have h3 : hg.diagmap.length * (hg.diagmap.length - 1) ≤ hg.diagmap.length * hg.diagmap.length := Nat.mul_le_mul_left _ (by omega)
  omega

theorem choose3 (k : ℕ) : 6 * (k + 3).choose 3 = (k + 1) * (k + 2) * (k + 3) := by
  have := Nat.add_one_mul_choose_eq (k + 2) 2
  have h2 := Nat.add_one_mul_choose_eq (k + 1) 1
  simp only [Nat.choose_one_right] at h2
  have e1 : (k + 3).choose 3 * 3 = (k + 3) * (k + 2).choose 2 := by simpa using this.symm
  have e2 : (k + 2).choose 2 * 2 = (k + 2) * (k + 1) := by simpa using h2.symm
  nlinarith

/-- **C87** the order of growth: the third moment of three or more variables takes between `n³ / 7` and `77 n³` operations, the fourth
moment of four or more between `n⁴ / 13` and `307 n⁴` -/
theorem C87_growth {hg : HessGrad R} (hv : hg.Valid) :
    (∃ m, m3 (Tally.start hg) = some m ∧ m3 hg = some m.val ∧ m.ops ≤ 77 * hg.vars.card ^ 3 ∧ (3 ≤ hg.vars.card → hg.vars.card ^ 3 ≤ 7 * m.ops)) ∧
    ∃ m, m4 (Tally.start hg) = some m ∧ m4 hg = some m.val ∧ m.ops ≤ 307 * hg.vars.card ^ 4 ∧ (4 ≤ hg.vars.card → hg.vars.card ^ 4 ≤ 13 * m.ops) := by
  have ht := stored_le hv
  obtain ⟨p, hp, hp', lp, up⟩ := C87_m3 hv
  obtain ⟨q, hq, hq', lq, uq⟩ := C87_m4 hv
  generalize hg.vars.card = n at *
  generalize hg.trimap.length = t at *
  have hn : n = 0 ∨ 1 ≤ n := by omega
  refine ⟨⟨p, hp, hp', ?_, fun h => ?_⟩, q, hq, hq', ?_, fun h => ?_⟩
  · rcases hn with rfl | hn
    · have : t = 0 := by simpa using ht
      subst this
      simpa using up
    · have h1 : n ≤ n ^ 3 := Nat.le_self_pow (by omega) n
      have h2 : n ^ 2 ≤ n ^ 3 := Nat.pow_le_pow_right hn (by omega)
      have h3 : 2 * t * n ≤ n ^ 3 := by
        calc 2 * t * n ≤ n ^ 2 * n := Nat.mul_le_mul_right _ ht
          _ = n ^ 3 := by ring
      have : t * (8 * n + 46) = 4 * (2 * t * n) + 23 * (2 * t) := by ring
      omega
  · obtain ⟨k, rfl⟩ : ∃ k, n = k + 3 := ⟨n - 3, by omega⟩
    have := choose3 k
    have h6 : (k + 3) * (3 * (k + 3) ^ 2) ≤ (k + 3) * (14 * ((k + 1) * (k + 2))) := Nat.mul_le_mul_left _ (by nlinarith)
    nlinarith
  · rcases hn with rfl | hn
    · have : t = 0 := by simpa using ht
      subst this
      simpa using uq
    · have h1 : n ≤ n ^ 4 := Nat.le_self_pow (by omega) n
      have h2 : n ^ 2 ≤ n ^ 4 := Nat.pow_le_pow_right hn (by omega)
      have h3 : n ^ 3 ≤ n ^ 4 := Nat.pow_le_pow_right hn (by omega)
      have h4 : 2 * t * n ^ 2 ≤ n ^ 4 := by
        calc 2 * t * n ^ 2 ≤ n ^ 2 * n ^ 2 := Nat.mul_le_mul_right _ ht
          _ = n ^ 4 := by ring
      have h5 : 2 * t * n ≤ n ^ 3 := by
        calc 2 * t * n ≤ n ^ 2 * n := Nat.mul_le_mul_right _ ht
          _ = n ^ 3 := by ring
      have h6 : (2 * t) ^ 2 ≤ n ^ 4 := by
        calc (2 * t) ^ 2 ≤ (n ^ 2) ^ 2 := Nat.pow_le_pow_left ht 2
          _ = n ^ 4 := by ring
      have e1 : t * (10 * n ^ 2 + 184 * n + 177) = 5 * (2 * t * n ^ 2) + 92 * (2 * t * n) + 177 * t := by ring
      have e2 : (2 * t) ^ 2 = 4 * t ^ 2 := by ring
      omega
  · obtain ⟨k, rfl⟩ : ∃ k, n = k + 4 := ⟨n - 4, by omega⟩
    have := choose3 k
    have e : k + 4 - 1 = k + 3 := by omega
    rw [e] at lq
    have h6 : 5 * (k + 4) * ((k + 1) * (k + 2) * (k + 3)) ≤ 6 * q.ops := by
      rw [← this]; nlinarith
    nlinarith [sq_nonneg k]

end

/-- the sum of `n` independent standard normal variables, as the library stores it: no second derivatives and nothing off the diagonal -/
def sumHG (n : ℕ) : HessGrad ℤ := ⟨(List.range n).map fun i : ℕ => ((i : ℤ) + 1, ⟨1, 0, ⟨0, 3, 0, 15, 0, 105⟩⟩), []⟩

theorem sumHG_valid (n : ℕ) : (sumHG n).Valid := by
  refine ⟨?_, List.Pairwise.nil, fun i j h => by simp [sumHG, keys] at h⟩
  unfold SMap.Sorted sumHG keys
  rw [List.map_map, List.pairwise_map]
  refine List.pairwise_lt_range.imp fun {a b} h => ?_
  simp only [Function.comp]
  omega

theorem sumHG_card (n : ℕ) : (sumHG n).vars.card = n := by
  rw [card_vars (sumHG_valid n)]; simp [sumHG]

/-- **C87** storing only the elements which are needed does not save time: no constant times the cube of the stored elements bounds the
operations of the fourth moment, not even for sums of independent variables, where all of the second derivatives are 0 -/
theorem C87_sparse_false (K : ℕ) :
    ∃ hg : HessGrad ℤ, hg.Valid ∧ (∀ p ∈ hg.diagmap, p.2.hhess = 0) ∧ hg.trimap = [] ∧
      ∃ m, m4 (Tally.start hg) = some m ∧ m4 hg = some m.val ∧ K * (hg.diagmap.length + hg.trimap.length) ^ 3 < m.ops := by
  refine ⟨sumHG (13 * K + 4), sumHG_valid _, fun p hp => ?_, rfl, ?_⟩
  · simp only [sumHG, List.mem_map] at hp
    obtain ⟨i, -, rfl⟩ := hp
    rfl
  · obtain ⟨m, h1, h2, -, h4⟩ := (C87_growth (sumHG_valid (13 * K + 4))).2
    rw [sumHG_card] at h4
    have h5 := h4 (by omega)
    refine ⟨m, h1, h2, ?_⟩
    have e : (sumHG (13 * K + 4)).diagmap.length + (sumHG (13 * K + 4)).trimap.length = 13 * K + 4 := by simp [sumHG]
    rw [e]
    have h6 : (13 * K + 4) ^ 4 = 13 * (K * (13 * K + 4) ^ 3) + 4 * (13 * K + 4) ^ 3 := by ring
    have h7 : 0 < (13 * K + 4) ^ 3 := by positivity
    omega

/-! ## examples -/

/-- `x y`, with a quadratic term in `x`, for two normal variables -/
def exMC : HessGrad ℤ := ⟨[(1, ⟨2, 1, ⟨0, 3, 0, 15, 0, 105⟩⟩), (2, ⟨3, 0, ⟨0, 3, 0, 15, 0, 105⟩⟩)], [(toLex (1, 2), 1)]⟩

theorem exMC_valid : exMC.Valid := by
  refine ⟨by simp [SMap.Sorted, exMC, keys], by simp [SMap.Sorted, exMC, keys], fun i j h => ?_⟩
  simp only [exMC, keys, List.map_cons, List.map_nil, List.mem_singleton, EmbeddingLike.apply_eq_iff_eq, Prod.mk.injEq] at h
  obtain ⟨rfl, rfl⟩ := h
  simp [exMC, keys]

/-- the mean of two variables takes two additions -/
example : (m1 (Tally.start exMC)).ops = exMC.vars.card ∧ exMC.vars.card = 2 ∧ (m1 (Tally.start exMC)).val = 1 :=
  ⟨(C87_m1 exMC_valid).2, by decide, (C87_m1 exMC_valid).1.trans (by decide)⟩

/-- the second moment of two variables takes 24 operations -/
example : ∃ m, m2 (Tally.start exMC) = some m ∧ m.ops = 24 ∧ m.val = 20 := by
  obtain ⟨m, h1, h2, h3⟩ := C87_m2 exMC_valid
  refine ⟨m, h1, h3.trans (by decide), ?_⟩
  have : m2 exMC = some 20 := by decide
  rw [this] at h2
  exact (Option.some_inj.1 h2).symm

/-- the third moment of two variables and one mixed derivative takes at most 242 operations (it takes 110) -/
example : ∃ m, m3 (Tally.start exMC) = some m ∧ m.ops ≤ 242 ∧ m.ops = 110 := by
  obtain ⟨m, h1, -, -, h3⟩ := C87_m3 exMC_valid
  refine ⟨m, h1, h3.trans (by decide), ?_⟩
  have : (m3 (Tally.start exMC)).map Tally.ops = some 110 := by decide
  rw [h1] at this
  exact Option.some_inj.1 this

/-- the fourth moment of a sum of 100 variables, all of whose second derivatives are 0, takes more than 78 million operations -/
example : ∃ m, m4 (Tally.start (sumHG 100)) = some m ∧ 78000000 < m.ops := by
  obtain ⟨m, h1, -, h3, -⟩ := C87_m4 (sumHG_valid 100)
  rw [sumHG_card] at h3
  have : (100 - 1 : ℕ).choose 3 = 156849 := by decide
  exact ⟨m, h1, by rw [this] at h3; omega⟩

/-- and the third less than 5 million -/
example : ∃ m, m3 (Tally.start (sumHG 100)) = some m ∧ m.ops < 5000000 := by
  obtain ⟨m, h1, -, -, h3⟩ := C87_m3 (sumHG_valid 100)
  rw [sumHG_card, show (sumHG 100).trimap.length = 0 from rfl] at h3
  exact ⟨m, h1, by omega⟩

/-- the growth of the moments of the sums -/
example (n : ℕ) (hn : 4 ≤ n) : ∃ m, m4 (Tally.start (sumHG n)) = some m ∧ n ^ 4 ≤ 13 * m.ops ∧ m.ops ≤ 307 * n ^ 4 := by
  obtain ⟨m, h1, -, h3, h4⟩ := (C87_growth (sumHG_valid n)).2
  rw [sumHG_card] at h3 h4
  exact ⟨m, h1, h4 hn, h3⟩

/-- the covariance of the example with the sum of five variables: 10 products of second derivatives, two variables in common -/
example : ∃ m, c2 (Tally.start exMC) (Tally.start (sumHG 5)) = some m ∧ m.ops = 38 := by
  obtain ⟨m, h1, -, h3⟩ := C87_cov exMC_valid (sumHG_valid 5)
  exact ⟨m, h1, h3.trans (by decide)⟩

example : ∃ hg : HessGrad ℤ, hg.Valid ∧ hg.trimap = [] ∧ ∃ m, m4 (Tally.start hg) = some m ∧ 1000 * hg.diagmap.length ^ 3 < m.ops := by
  obtain ⟨hg, h1, -, h3, m, h4, -, h6⟩ := C87_sparse_false 1000
  rw [h3] at h6
  exact ⟨hg, h1, h3, m, h4, h6⟩

end Unc.Props
