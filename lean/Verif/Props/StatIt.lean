import Verif.Model.StatIt
import Verif.Model.Stat2
import Verif.Props.Stat

/-!
# C73: covariance and correlation matrices written through iterators
-/

namespace Unc.Props
open Unc Unc.Spec Stat

section
variable {α β : Type*}

theorem put_all (w : List β) (buf : List β) (pos : ℕ) : w.foldlM put (buf, pos) =
    if w = [] ∨ pos + w.length ≤ buf.length then some (buf.take pos ++ w ++ buf.drop (pos + w.length), pos + w.length) else none := by
  induction w generalizing buf pos with
  | nil => simp
  | cons a t ih =>
    rw [List.foldlM_cons]
    by_cases h : pos < buf.length
    · have e : put (buf, pos) a = some (buf.set pos a, pos + 1) := by simp [put, setAt, h]
      rw [e]
      change List.foldlM put (buf.set pos a, pos + 1) t = _
      rw [ih]
      simp only [List.length_set, List.length_cons, reduceCtorEq, false_or]
      by_cases h2 : pos + (t.length + 1) ≤ buf.length
      · rw [if_pos (Or.inr (by omega)), if_pos h2]
        congr 2
        · rw [List.drop_set_of_lt (by omega), show pos + 1 + t.length = pos + (t.length + 1) by omega]
          rw [List.set_eq_take_append_cons_drop, if_pos h, List.take_append]
          simp [show pos + 1 - min pos buf.length = 1 by omega, Nat.min_eq_left h.le]
        · omega
      · rw [if_neg h2, if_neg]
        rintro (rfl | h3)
        · simp at h2; omega
        · omega
    · have e : put (buf, pos) a = none := by simp [put, setAt, h]
      rw [e, if_neg]
      · rfl
      · simp only [reduceCtorEq, false_or, List.length_cons]; omega

theorem outerIt_eq (x : List α) (op : α → α → β) (buf : List β) (pos : ℕ) : outerIt x op buf pos = (outerSeq x op).foldlM put (buf, pos) := by
  unfold outerIt outerSeq
  have : ∀ (l : List α) (s : List β × ℕ), l.foldlM (fun s a => x.foldlM (fun s b => put s (op a b)) s) s =
      (l.flatMap fun a => x.map fun b => op a b).foldlM put s := by
    intro l
    induction l with
    | nil => intro s; rfl
    | cons a t ih =>
      intro s
      rw [List.foldlM_cons, List.flatMap_cons, List.foldlM_append]
      congr 1
      · rw [List.foldlM_map]
      · funext s; exact ih s
  exact this x _

/-- the matrix of `op` on the elements of `x` is in the array from `pos`, row by row; the rest of the array is as before; what is returned is the
position after the matrix -/
def Wrote (x : List α) (op : α → α → β) (buf : List β) (pos : ℕ) (r : Option (List β × ℕ)) : Prop :=
  ∃ buf', r = some (buf', pos + x.length * x.length) ∧ buf'.length = buf.length ∧
    (∀ i j a b, x[i]? = some a → x[j]? = some b → buf'[pos + (x.length * i + j)]? = some (op a b)) ∧
    ∀ k, k < pos ∨ pos + x.length * x.length ≤ k → buf'[k]? = buf[k]?

theorem outerIt_wrote (x : List α) (op : α → α → β) (buf : List β) (pos : ℕ) (h : pos + x.length * x.length ≤ buf.length) :
    Wrote x op buf pos (outerIt x op buf pos) := by
  rw [outerIt_eq, put_all, length_outerSeq, if_pos (Or.inr h)]
  refine ⟨_, rfl, ?_, ?_, ?_⟩
  · simp [length_outerSeq]; omega
  · intro i j a b hi hj
    obtain ⟨hi', rfl⟩ := List.getElem?_eq_some_iff.1 hi
    obtain ⟨hj', rfl⟩ := List.getElem?_eq_some_iff.1 hj
    have hlt : x.length * i + j < x.length * x.length := by nlinarith
    rw [List.append_assoc, List.getElem?_append_right (by simp), List.getElem?_append_left]
    · rw [List.length_take, Nat.min_eq_left (by omega), Nat.add_sub_cancel_left]
      exact getElem?_outerSeq x op i j hi' hj'
    · rw [List.length_take, Nat.min_eq_left (by omega), Nat.add_sub_cancel_left, length_outerSeq]; exact hlt
  · rintro k (hk | hk)
    · rw [List.append_assoc, List.getElem?_append_left (by simp; omega), List.getElem?_take_of_lt hk]
    · rw [List.getElem?_append_right (by simp [length_outerSeq]; omega), List.getElem?_drop]
      congr 1
      simp [length_outerSeq]; omega

theorem outerIt_none (x : List α) (op : α → α → β) (buf : List β) (pos : ℕ) :
    outerIt x op buf pos = none ↔ x ≠ [] ∧ buf.length < pos + x.length * x.length := by
  rw [outerIt_eq, put_all, length_outerSeq]
  have : outerSeq x op = [] ↔ x = [] := by
    rw [← List.length_eq_zero_iff, length_outerSeq]; simp
  split_ifs with h <;> rw [this] at h
  · simp only [reduceCtorEq, false_iff, not_and, not_lt]
    rintro h1; exact h.resolve_left h1
  · simp only [true_iff]
    push Not at h
    exact h

end

section
variable {R : Type*} [Zero R] [Add R] [Mul R] [Div R] [CCmp R] [CSqrt R]

/-- **C73** The functions with iterators write the matrix row by row, leave the rest of the array alone, and return the position after the matrix. -/
theorem C73_written (x : List (UReal R)) (buf : List R) (pos : ℕ) (h : pos + x.length * x.length ≤ buf.length) :
    Wrote x UReal.cov buf pos (covMatrixIt x buf pos) ∧ Wrote x UReal.corr buf pos (corrMatrixIt x buf pos) :=
  ⟨outerIt_wrote x _ buf pos h, outerIt_wrote x _ buf pos h⟩

/-- **C73** They are undefined exactly if there is something to write and no room for it. -/
theorem C73_ub (x : List (UReal R)) (buf : List R) (pos : ℕ) :
    (covMatrixIt x buf pos = none ↔ x ≠ [] ∧ buf.length < pos + x.length * x.length) ∧
    (corrMatrixIt x buf pos = none ↔ x ≠ [] ∧ buf.length < pos + x.length * x.length) :=
  ⟨outerIt_none x _ buf pos, outerIt_none x _ buf pos⟩

/-- **C73** The functions which return a vector give what those with iterators write into a new one. -/
theorem C73_vector (x : List (UReal R)) (hn : x.length < 4294967296) (buf : List R) (hb : buf.length = x.length * x.length) :
    covMatrix x = (covMatrixIt x buf 0).map Prod.fst ∧ corrMatrix x = (corrMatrixIt x buf 0).map Prod.fst := by
  have : ∀ op : UReal R → UReal R → R, outer x op = (outerIt x op buf 0).map Prod.fst := by
    intro op
    rw [outer_some x op hn, outerIt_eq, put_all, length_outerSeq, if_pos (Or.inr (by omega))]
    simp [hb]
  exact ⟨this _, this _⟩

end

section
variable {α : Type*}

/-- while the writes stay away from the input, the elements read are the original ones -/
theorem mem_loop (op : α → α → α) (g : ℕ → α) {b e lo hi : ℕ} (hd : e ≤ lo ∨ hi ≤ b) (ps : List (ℕ × ℕ))
    (hps : ∀ p ∈ ps, (b ≤ p.1 ∧ p.1 < e) ∧ b ≤ p.2 ∧ p.2 < e) (s : List α × ℕ) (hs : ∀ k, b ≤ k → k < e → s.1[k]? = some (g k))
    (h1 : lo ≤ s.2) (h2 : s.2 + ps.length ≤ hi) :
    ps.foldlM (fun s p => s.1[p.1]?.bind fun x => s.1[p.2]?.bind fun y => put s (op x y)) s = (ps.map fun p => op (g p.1) (g p.2)).foldlM put s := by
  induction ps generalizing s with
  | nil => rfl
  | cons p t ih =>
    obtain ⟨⟨a1, a2⟩, a3, a4⟩ := hps p (by simp)
    rw [List.foldlM_cons, List.map_cons, List.foldlM_cons, hs _ a1 a2, hs _ a3 a4]
    change (put s (op (g p.1) (g p.2))).bind _ = (put s (op (g p.1) (g p.2))).bind _
    unfold put setAt
    split_ifs with h
    · simp only [Option.map_some, Option.bind_some]
      rw [List.length_cons] at h2
      refine ih (fun q hq => hps q (by simp [hq])) _ (fun k hk hk' => ?_) (by change lo ≤ s.2 + 1; omega) (by change s.2 + 1 + t.length ≤ hi; omega)
      change (s.1.set s.2 _)[k]? = _
      rw [List.getElem?_set_ne (by omega)]
      exact hs k hk hk'
    · rfl

theorem foldlM_pairs {σ : Type*} (step : σ → ℕ → ℕ → Option σ) (l m : List ℕ) (s : σ) :
    l.foldlM (fun s i => m.foldlM (fun s j => step s i j) s) s = (l.flatMap fun i => m.map fun j => (i, j)).foldlM (fun s p => step s p.1 p.2) s := by
  induction l generalizing s with
  | nil => rfl
  | cons a t ih =>
    rw [List.foldlM_cons, List.flatMap_cons, List.foldlM_append]
    congr 1
    · rw [List.foldlM_map]
    · funext s; exact ih s

theorem outerMem_eq (op : α → α → α) (mem : List α) {b e pos : ℕ} (he : e ≤ mem.length) (hd : e ≤ pos ∨ pos + (e - b) * (e - b) ≤ b) :
    outerMem b e op mem pos = outerIt ((mem.drop b).take (e - b)) op mem pos := by
  by_cases hbe : e ≤ b
  · simp [outerMem, outerIt, Nat.sub_eq_zero_of_le hbe]
  push Not at hbe
  have d : α := mem[b]'(by omega)
  set g : ℕ → α := fun k => (mem[k]?).getD d with hg
  have hg' : ∀ k, b ≤ k → k < e → mem[k]? = some (g k) := by
    intro k _ hk
    rw [hg]
    simp [List.getElem?_eq_getElem (show k < mem.length by omega)]
  have hx : (mem.drop b).take (e - b) = (List.range' b (e - b)).map g := by
    refine List.ext_getElem? fun k => ?_
    by_cases hk : k < e - b
    · rw [List.getElem?_take_of_lt hk, List.getElem?_drop, hg' (b + k) (by omega) (by omega)]
      simp [hk]
    · rw [List.getElem?_eq_none (by simp; omega), List.getElem?_eq_none (by simp; omega)]
  have hm : ∀ p ∈ (List.range' b (e - b)).flatMap (fun i => (List.range' b (e - b)).map fun j => (i, j)),
      (b ≤ p.1 ∧ p.1 < e) ∧ b ≤ p.2 ∧ p.2 < e := by
    intro p hp
    simp only [List.mem_flatMap, List.mem_map, List.mem_range'_1] at hp
    obtain ⟨i, hi, j, hj, rfl⟩ := hp
    exact ⟨⟨hi.1, by omega⟩, hj.1, by omega⟩
  have hl : ((List.range' b (e - b)).flatMap (fun i => (List.range' b (e - b)).map fun j => (i, j))).length = (e - b) * (e - b) := by
    have := length_outerSeq (List.range' b (e - b)) (fun i j => (i, j))
    simpa [outerSeq] using this
  unfold outerMem
  rw [foldlM_pairs (fun s i j => s.1[i]?.bind fun x => s.1[j]?.bind fun y => put s (op x y)),
    mem_loop op g hd _ hm _ hg' le_rfl (by rw [hl]), outerIt_eq, hx]
  congr 1
  simp [outerSeq, List.map_flatMap, List.flatMap_map, Function.comp_def]

/-- **C73** Input and output may be in the same array if they do not overlap. -/
theorem C73_same_array (op : α → α → α) (mem : List α) {b e pos : ℕ} (he : e ≤ mem.length) (hr : pos + (e - b) * (e - b) ≤ mem.length)
    (hd : e ≤ pos ∨ pos + (e - b) * (e - b) ≤ b) : Wrote ((mem.drop b).take (e - b)) op mem pos (outerMem b e op mem pos) := by
  rw [outerMem_eq op mem he hd]
  refine outerIt_wrote _ op mem pos ?_
  have : ((mem.drop b).take (e - b)).length = e - b ∨ e ≤ b := by simp; omega
  rcases this with h | h
  · rw [h]; exact hr
  · simp [Nat.sub_eq_zero_of_le h] at hr ⊢; exact hr

theorem rowStream_eq {β : Type*} (op : α → α → β) (x y : α) (rest : List α) : rowStream op x y rest = ((y :: rest).map (op x), []) := by
  induction rest generalizing y with
  | nil => rfl
  | cons z t ih => simp [rowStream, ih]

/-- **C73** With iterators which read a stream only the first row of the matrix is written. -/
theorem C73_stream {β : Type*} (op : α → α → β) (a : α) (rest : List α) : outerStream op (a :: rest) = (a :: rest).map (op a) := by
  simp [outerStream, rowsStream, rowStream_eq]

end

/-- **C73**, what fails: with iterators that can be read once, as the name `InputIt` promises, the matrix of two variables has two elements instead
of four, and the iterator returned is not after the matrix. -/
theorem C73_stream_false : outerStream UReal.cov [ex1, ex2] = [UReal.cov ex1 ex1, UReal.cov ex1 ex2] ∧
    outerSeq [ex1, ex2] UReal.cov = [UReal.cov ex1 ex1, UReal.cov ex1 ex2, UReal.cov ex2 ex1, UReal.cov ex2 ex2] :=
  ⟨C73_stream _ _ _, rfl⟩

/-- **C73**, what fails: if the matrix overwrites the variables the later elements are those of the constants written.  Here the variance of the
second variable, 16, is written as 0. -/
theorem C73_overlap_false : ∃ r, outerMem 0 2 (fun x y => UReal.const (UReal.cov x y)) [(⟨1, 3, 5, []⟩ : UReal ℚ), ⟨2, 4, 6, []⟩, UReal.const 7, UReal.const 8] 0 =
    some r ∧ r.1.map UReal.n = [9, 0, 0, 0] := by
  refine ⟨_, rfl, ?_⟩
  decide +kernel

/-- the matrix of three variables in the middle of an array of 12 -/
example : ∃ m, covMatrixIt [ex1, ex2, ex3] (List.replicate 12 7) 2 = some (m, 11) ∧ m[2 + (3 * 1 + 2)]? = some (UReal.cov ex2 ex3) ∧ m[1]? = some 7 ∧ m[11]? = some 7 := by
  obtain ⟨m, e, -, h, h'⟩ := (C73_written [ex1, ex2, ex3] (List.replicate 12 (7 : ℝ)) 2 (by simp)).1
  exact ⟨m, e, h 1 2 ex2 ex3 rfl rfl, (h' 1 (Or.inl (by norm_num))).trans rfl, (h' 11 (Or.inr (by norm_num))).trans rfl⟩

example : covMatrixIt [ex1, ex2] [0, 0, 0] 0 = none ∧ corrMatrixIt [ex1, ex2] [0, 0, 0, 0, 0] 1 ≠ none ∧ covMatrixIt ([] : List (UReal ℝ)) [] 3 ≠ none :=
  ⟨(C73_ub _ _ _).1.2 ⟨by simp, by simp⟩, fun h => by simpa using ((C73_ub _ _ _).2.1 h).2, fun h => ((C73_ub _ _ _).1.1 h).1 rfl⟩

example : covMatrix [ex1, ex2] = (covMatrixIt [ex1, ex2] [1, 2, 3, 4] 0).map Prod.fst := (C73_vector [ex1, ex2] (by simp) [1, 2, 3, 4] rfl).1

/-- the two variables at the end of the array, the matrix before them -/
example : ∃ m, outerMem 4 6 (fun x y => UReal.const (UReal.cov x y)) [ex3, ex3, ex3, ex3, ex1, ex2] 0 = some (m, 4) ∧
    m[2 * 0 + 1]? = some (UReal.const (UReal.cov ex1 ex2)) ∧ m[5]? = some ex2 := by
  obtain ⟨m, e, -, h, h'⟩ := C73_same_array (fun x y => UReal.const (UReal.cov x y)) [ex3, ex3, ex3, ex3, ex1, ex2] (b := 4) (e := 6) (pos := 0)
    (by simp) (by simp) (by simp)
  exact ⟨m, e, by simpa using h 0 1 ex1 ex2 rfl rfl, (h' 5 (Or.inr (by simp))).trans rfl⟩

example : (outerStream UReal.corr [ex1, ex2, ex3]).length = 3 := by rw [C73_stream]; rfl

end Unc.Props
