import Verif.Lemmas.Joined
import Verif.Props.Threads

/-!
# C82: the work after the threads have finished, to first order in exact arithmetic
-/

namespace Unc.Props
open Unc Unc.Spec UReal

/-- **C82** After a sequential phase `p0` the threads run race-free code, in the schedule `p` or in the schedule `p'`, and then the main thread runs `q`, which
may use the variables of all threads together and create others.  For programs with `UReal` variables and exact arithmetic nothing about the schedule can
be seen afterwards: there is no undefined behaviour, all calls in `q` return the same values and exceptions, and in the end all nominal values,
uncertainties, variances, covariances and correlations are the same. -/
theorem C82_after_partial (p0 p p' q : List (Step ℝ)) (hp : ∀ st ∈ p, RaceFree st) (hp' : ∀ st ∈ p', RaceFree st)
    (hpp : ∀ t, project t p = project t p') (hc : countNew p0 + countNew p + countNew q < 2147483647) :
    ∃ w os w' os', World.init.run (p0 ++ p ++ q) = some (w, os) ∧ World.init.run (p0 ++ p' ++ q) = some (w', os') ∧
      os.length = (p0 ++ p ++ q).length ∧ os'.length = (p0 ++ p' ++ q).length ∧
      os.drop (p0 ++ p).length = os'.drop (p0 ++ p').length ∧
      (∀ r, (w.regs r).n = (w'.regs r).n ∧ (w.regs r).s = (w'.regs r).s ∧ var (w.regs r) = var (w'.regs r)) ∧
      ∀ r l, cov (w.regs r) (w.regs l) = cov (w'.regs r) (w'.regs l) ∧ corr (w.regs r) (w.regs l) = corr (w'.regs r) (w'.regs l) := by
  have count : ∀ (a : AWorld ℝ) (p : List (Step ℝ)), (a.run p).1.count = a.count + countNew p := by
    intro a p
    induction p generalizing a with
    | nil => rfl
    | cons st p ih =>
      rw [countNew_cons, ← Nat.add_assoc, ← count_step, ← ih]
      rfl
  obtain ⟨π, h⟩ := joined_of_project (Sound.init.run p0) p p' hp hp' hpp
  have hcount : countNew p' = countNew p := by
    have := h.count
    rw [count _ p', count _ p] at this
    omega
  obtain ⟨hq, ho⟩ := h.run q
  obtain ⟨w, e, s⟩ := Sim.init.run (p0 ++ p ++ q) (by simp only [countNew_append, AWorld.init]; omega)
  obtain ⟨w', e', s'⟩ := Sim.init.run (p0 ++ p' ++ q) (by simp only [countNew_append, AWorld.init]; omega)
  rw [AWorld.run_append, AWorld.run_append] at e s
  rw [AWorld.run_append, AWorld.run_append] at e' s'
  have hcov : ∀ r l, cov (w.regs r) (w.regs l) = cov (w'.regs r) (w'.regs l) := by
    intro r l
    rw [cov_eq (s.valid r).wf (s.valid l).wf, cov_eq (s'.valid r).wf (s'.valid l).wf, s.lin, s.lin, s'.lin, s'.lin]
    exact ((hq.regs r).cov (hq.regs l)).symm
  have hs : ∀ r, (w.regs r).s = (w'.regs r).s := by
    intro r
    rw [s_eq (s.valid r), s_eq (s'.valid r), s.lin, s'.lin]
    exact congrArg _ (hq.regs r).var.symm
  refine ⟨w, _, w', _, e, e', ?_, ?_, ?_, fun r => ⟨?_, hs r, ?_⟩, fun r l => ⟨hcov r l, ?_⟩⟩
  · simp [AWorld.length_run]
  · simp [AWorld.length_run]
  · rw [List.drop_left' (by simp [AWorld.length_run]), List.drop_left' (by simp [AWorld.length_run])]
    exact ho.symm
  · have h1 : (w.regs r).toLin.mean = (w'.regs r).toLin.mean := by
      rw [s.lin, s'.lin]
      exact (hq.regs r).mean.symm
    exact h1
  · rw [var_eq (s.valid r), var_eq (s'.valid r), s.lin, s'.lin]
    exact (hq.regs r).var.symm
  · unfold corr
    rw [hcov r l, hs r, hs l]

/-- thread 1 creates `x`, thread 2 tries to create a variable with a negative uncertainty and then creates `y`; the main thread, which made `z` before,
computes `x * y + z` and makes another variable -/
example : ∃ (w : World ℝ) (os : List (Out ℝ)) (w' : World ℝ) (os' : List (Out ℝ)),
    World.init.run ([.new ⟨0, 0⟩ 1 1] ++ [.new ⟨1, 0⟩ 2 3, .new ⟨2, 0⟩ 0 (-1), .new ⟨2, 1⟩ 5 1] ++
      [.binary ⟨0, 1⟩ ⟨1, 0⟩ ⟨2, 1⟩ 10 5 2, .binary ⟨0, 2⟩ ⟨0, 1⟩ ⟨0, 0⟩ 11 1 1, .readVar ⟨0, 2⟩, .new ⟨0, 3⟩ 0 1]) = some (w, os) ∧
    World.init.run ([.new ⟨0, 0⟩ 1 1] ++ [.new ⟨2, 0⟩ 0 (-1), .new ⟨2, 1⟩ 5 1, .new ⟨1, 0⟩ 2 3] ++
      [.binary ⟨0, 1⟩ ⟨1, 0⟩ ⟨2, 1⟩ 10 5 2, .binary ⟨0, 2⟩ ⟨0, 1⟩ ⟨0, 0⟩ 11 1 1, .readVar ⟨0, 2⟩, .new ⟨0, 3⟩ 0 1]) = some (w', os') ∧
    os.drop 4 = os'.drop 4 ∧ cov (w.regs ⟨0, 2⟩) (w.regs ⟨2, 1⟩) = cov (w'.regs ⟨0, 2⟩) (w'.regs ⟨2, 1⟩) := by
  obtain ⟨w, os, w', os', e, e', -, -, ho, -, h⟩ := C82_after_partial [.new ⟨0, 0⟩ 1 1] [.new ⟨1, 0⟩ 2 3, .new ⟨2, 0⟩ 0 (-1), .new ⟨2, 1⟩ 5 1]
    [.new ⟨2, 0⟩ 0 (-1), .new ⟨2, 1⟩ 5 1, .new ⟨1, 0⟩ 2 3]
    [.binary ⟨0, 1⟩ ⟨1, 0⟩ ⟨2, 1⟩ 10 5 2, .binary ⟨0, 2⟩ ⟨0, 1⟩ ⟨0, 0⟩ 11 1 1, .readVar ⟨0, 2⟩, .new ⟨0, 3⟩ 0 1]
    (by simp [RaceFree, threadOf, writes, reads]) (by simp [RaceFree, threadOf, writes, reads])
    (by
      intro t
      by_cases h1 : t = 1
      · subst h1; simp [project, threadOf, writes]
      · by_cases h2 : t = 2
        · subst h2; simp [project, threadOf, writes]
        · simp [project, threadOf, writes, Ne.symm h1, Ne.symm h2])
    (by simp [countNew])
  exact ⟨w, os, w', os', e, e', ho, (h _ _).1⟩

end Unc.Props
