import Verif.Props.Rounded

set_option linter.unusedSectionVars false

/-!
# C113: the policy outside the range, in double arithmetic
-/

namespace MU
open Spec Interp1d

variable {rnd : ℝ → ℝ}

theorem interp1dR_built (hr : ToNearest rnd) (B : Build) {m : InterpMethod} {kind : Interp1dKind} (hk : make m = .ok kind) {xs ys : List ℝ}
    (ht : Table xs ys) (hpos : 0 < xs.length) (x : ℝ) :
    interp1dR rnd B m xs ys x = evalR rnd kind (builtR rnd xs ys hpos (xs.length - 1)) x := by
  simp only [interp1dR, hk, Res.ok_bind, run_initR hr B hpos ht.sizes ht.increasing]

/-- C113: in double arithmetic LINEAR exits on both sides of the range. -/
theorem C113_linear_exits (hr : ToNearest rnd) (B : Build) {xs ys : List ℝ} (ht : Table xs ys) {x : ℝ}
    (h : x < xs[0]'(by have := ht.two; omega) ∨ xs[xs.length - 1]'(by have := ht.two; omega) < x) :
    interp1dR rnd B .LINEAR xs ys x = .exits 1 := by
  rw [interp1dR_built hr B (kind := .linear) rfl ht (by have := ht.two; omega)]
  simp only [evalR, builtR, readVar_some, Res.ok_bind]
  rcases h with h | h
  · rw [if_pos h]
  · split
    · rfl
    · rfl

/-- C113: in double arithmetic LINEAR_SATURATE returns below the range exactly what it returns at the first abscissa. -/
theorem C113_saturate_left (hr : ToNearest rnd) (B : Build) {xs ys : List ℝ} (ht : Table xs ys) {x : ℝ}
    (h : x ≤ xs[0]'(by have := ht.two; omega)) :
    interp1dR rnd B .LINEAR_SATURATE xs ys x = interp1dR rnd B .LINEAR_SATURATE xs ys (xs[0]'(by have := ht.two; omega)) := by
  have h2 := ht.two
  have hle : xs[0] ≤ xs[xs.length - 1] := getElem_le_of_pairwise ht.increasing (by omega) (by omega)
  simp only [interp1dR_built hr B (m := .LINEAR_SATURATE) (kind := .saturate) rfl ht (by omega : 0 < xs.length)]
  simp only [evalR, builtR, readVar_some, Res.ok_bind]
  congr 1
  rcases lt_or_eq_of_le h with h | h
  · simp [h, not_lt.mpr hle]
  · simp [h, not_lt.mpr hle]

/-- C113: in double arithmetic LINEAR_SATURATE returns above the range exactly what it returns at the last abscissa. -/
theorem C113_saturate_right (hr : ToNearest rnd) (B : Build) {xs ys : List ℝ} (ht : Table xs ys) {x : ℝ}
    (h : xs[xs.length - 1]'(by have := ht.two; omega) ≤ x) :
    interp1dR rnd B .LINEAR_SATURATE xs ys x = interp1dR rnd B .LINEAR_SATURATE xs ys (xs[xs.length - 1]'(by have := ht.two; omega)) := by
  have h2 := ht.two
  have hle : xs[0] ≤ xs[xs.length - 1] := getElem_le_of_pairwise ht.increasing (by omega) (by omega)
  simp only [interp1dR_built hr B (m := .LINEAR_SATURATE) (kind := .saturate) rfl ht (by omega : 0 < xs.length)]
  simp only [evalR, builtR, readVar_some, Res.ok_bind]
  congr 1
  rcases lt_or_eq_of_le h with h | h
  · simp [h, not_lt.mpr hle, not_lt.mpr (hle.trans h.le)]
  · simp [← h, not_lt.mpr hle]

/-- C113: in double arithmetic LINEAR_SATURATE never fails: whatever the table and the point, it returns a value, that of a point of the range. -/
theorem C113_saturate_total (hr : ToNearest rnd) (B : Build) {xs ys : List ℝ} (ht : Table xs ys) (x : ℝ) :
    ∃ v, interp1dR rnd B .LINEAR_SATURATE xs ys x = .ok v := by
  have h2 := ht.two
  have hin : ∀ x, xs[0] ≤ x → x ≤ xs[xs.length - 1] → ∃ v, interp1dR rnd B .LINEAR_SATURATE xs ys x = .ok v := by
    intro x h0 h1
    rw [interp1dR_built hr B (kind := .saturate) rfl ht (by omega), evalR_range _ _ _ h0 h1]
    obtain ⟨k, hk, hkl, hsp⟩ := exists_lowerBound ht.increasing x
    have hk' : k < xs.length := by
      by_contra hc
      have : k = xs.length := by omega
      exact absurd ((hsp (xs.length - 1) (by omega)).mp (by omega)) (not_lt.mpr h1)
    exact ⟨_, privEvalBaseR_built (by omega) x k hk hk' (by omega)⟩
  have hle : xs[0] ≤ xs[xs.length - 1] := getElem_le_of_pairwise ht.increasing (by omega) (by omega)
  rcases le_total x xs[0] with h | h
  · rw [C113_saturate_left hr B ht h]
    exact hin _ (le_refl _) hle
  · rcases le_total x xs[xs.length - 1] with h' | h'
    · exact hin _ h h'
    · rw [C113_saturate_right hr B ht h']
      exact hin _ hle (le_refl _)

theorem roundedTable : Table ([0, 1, 3] : List ℝ) ([5, 7, 1] : List ℝ) := ⟨by simp, by norm_num, rfl⟩

example (hr : ToNearest rnd) : interp1dR rnd ⟨true⟩ .LINEAR [0, 1, 3] [5, 7, 1] 4 = .exits 1 :=
  C113_linear_exits hr ⟨true⟩ roundedTable (Or.inr (by norm_num))

example (hr : ToNearest rnd) : interp1dR rnd ⟨true⟩ .LINEAR_SATURATE [0, 1, 3] [5, 7, 1] 4 =
    interp1dR rnd ⟨true⟩ .LINEAR_SATURATE [0, 1, 3] [5, 7, 1] 3 :=
  C113_saturate_right hr ⟨true⟩ roundedTable (by norm_num)

end MU
