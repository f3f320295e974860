import Verif.Model.Interp1d
import Verif.Spec.Interp
import Verif.Lemmas.Search
import Mathlib.Tactic.Ring
import Mathlib.Tactic.FieldSimp
import Mathlib.Tactic.Module
import Mathlib.Tactic.Linarith

/-! What `Initialize` leaves in a 1D interpolator, and how it is evaluated. -/

set_option linter.unusedSectionVars false

namespace MU.Interp1d

open MU.Spec

variable {K Y : Type} [Field K] [LinearOrder K] [IsStrictOrderedRing K] [AddCommGroup Y] [Module K Y]

/-- Slope of segment `i`. -/
def slope (xs : List K) (ys : List Y) (i : Nat) : Y :=
  (xs.getD (i + 1) 0 - xs.getD i 0)⁻¹ • (ys.getD (i + 1) 0 - ys.getD i 0)

/-- Intercept of segment `i`. -/
def icept (xs : List K) (ys : List Y) (i : Nat) : Y :=
  (xs.getD (i + 1) 0 - xs.getD i 0)⁻¹ • (xs.getD (i + 1) 0 • ys.getD i 0 - xs.getD i 0 • ys.getD (i + 1) 0)

/-- The object left by `Initialize`. -/
def built (s : Interp1d K Y) (xs : List K) (ys : List Y) (h : 0 < xs.length) (n : Nat) : Interp1d K Y :=
  { xcoord := some xs, yval := some ys, ndata := xs.length, xmin := some xs[0],
    xmax := some (xs[xs.length - 1]'(by omega)),
    a := s.a ++ (List.range n).map (slope xs ys), b := s.b ++ (List.range n).map (icept xs ys) }

theorem run_initializeBase (B : Build) {xs : List K} {ys : List Y} (h : 0 < xs.length) (hs : xs.length = ys.length)
    (hx : xs.Pairwise (· ≤ ·)) (s : Interp1d K Y) :
    (initializeBase B (some xs) (some ys)).run s = (.ok (), built s xs ys h 0) := by
  simp only [initializeBase, Act.run_bind, Act.run_lift, deref_some, cassert_true B _ hs, cassert_true B _ hx,
    Act.run_update, vAt_lt h, vAt_lt (show xs.length - 1 < xs.length by omega)]
  simp [built]

theorem run_initializeStep {xs : List K} {ys : List Y} (h : 0 < xs.length) (hs : xs.length = ys.length)
    (hx : xs.Pairwise (· < ·)) (s : Interp1d K Y) (i : Nat) (hi : 1 ≤ i) (hi2 : i < xs.length) :
    (initializeStep i).run (built s xs ys h (i - 1)) = (.ok (), built s xs ys h i) := by
  obtain ⟨i, rfl⟩ : ∃ k, i = k + 1 := ⟨i - 1, by omega⟩
  have hd : xs[i + 1] - xs[i] ≠ 0 := by
    have := getElem_lt_of_pairwise hx (Nat.lt_succ_self i) hi2
    exact sub_ne_zero.mpr (ne_of_gt this)
  simp only [initializeStep, Act.run_bind, Act.run_get, Act.run_lift, built, deref_some, Nat.add_sub_cancel,
    vAt_lt hi2, vAt_lt (show i < xs.length by omega), vAt_lt (show i < ys.length by omega),
    vAt_lt (show i + 1 < ys.length by omega), sdiv_ok hd, Act.run_update]
  congr 1
  have e1 : i + 1 < ys.length := by omega
  have e2 : i < ys.length := by omega
  have e3 : i < xs.length := by omega
  simp [List.range_succ, slope, icept, List.getD_eq_getElem?_getD, hi2, e1, e2, e3]

theorem run_init (B : Build) {xs : List K} {ys : List Y} (h : 0 < xs.length) (hs : xs.length = ys.length)
    (hx : xs.Pairwise (· < ·)) (s : Interp1d K Y) :
    (init B (some xs) (some ys)).run s = (.ok (), built s xs ys h (xs.length - 1)) := by
  rw [init, Act.run_bind_ok (run_initializeBase B h hs (pairwise_lt_le hx) s), Act.run_bind_ok (Act.run_get _)]
  exact Act.loop_ok (lo := 1) (hi := xs.length) (by omega) (fun i => built s xs ys h (i - 1))
    (fun i h1 h2 => by simpa using run_initializeStep h hs hx s i h1 h2)

/-- Segment `k` evaluated by the code is the straight line of the specification. -/
theorem line_eq {xs : List K} {ys : List Y} {i : Nat} (hi : i + 1 < xs.length) (hs : xs.length = ys.length)
    (hd : xs[i + 1] - xs[i] ≠ 0) (x : K) :
    x • slope xs ys i + icept xs ys i = line xs[i] ys[i] xs[i + 1] ys[i + 1] x := by
  have e1 : i + 1 < ys.length := by omega
  have e2 : i < ys.length := by omega
  have e3 : i < xs.length := by omega
  simp only [slope, icept, line, List.getD_eq_getElem?_getD, hi, e1, e2, e3, List.getElem?_eq_getElem, Option.getD_some]
  match_scalars <;> field_simp <;> ring

theorem privEvalBase_built {xs : List K} {ys : List Y} (h : 0 < xs.length) (s : Interp1d K Y) (ha : s.a = []) (hb : s.b = [])
    (x : K) (k : Nat) (hk : lowerBound xs x = .ok k) (h2 : k < xs.length) (h3 : 1 < xs.length) :
    privEvalBase (built s xs ys h (xs.length - 1)) x =
      .ok (x • slope xs ys (k - 1) + icept xs ys (k - 1)) := by
  simp only [privEvalBase, built, deref_some, Res.ok_bind, hk, ha, hb, List.nil_append]
  have e : (if k = 0 then 1 else k) - 1 = k - 1 := by split <;> omega
  rw [e, vAt_lt (by simp; omega), vAt_lt (by simp; omega)]
  simp

theorem exists_lowerBound {xs : List K} (hx : xs.Pairwise (· < ·)) (x : K) :
    ∃ k, lowerBound xs x = .ok k ∧ k ≤ xs.length ∧ ∀ j (hj : j < xs.length), j < k ↔ xs[j] < x :=
  lowerBound_spec (pairwise_lt_le hx) x

/-- In the range, `lower_bound` lands on the right end of a cell containing the point. -/
theorem lowerBound_cell {xs : List K} (hx : xs.Pairwise (· < ·)) {i : Nat} (hi : i + 1 < xs.length) {x : K}
    (h0 : xs[i] ≤ x) (h1 : x ≤ xs[i + 1]) :
    ∃ k, lowerBound xs x = .ok k ∧ ((k = i + 1) ∨ (k = i ∧ x = xs[i])) := by
  obtain ⟨k, hk, hkl, hsp⟩ := exists_lowerBound hx x
  refine ⟨k, hk, ?_⟩
  have hup : ¬ i + 1 < k := fun h => absurd ((hsp (i + 1) hi).mp h) (not_lt.mpr h1)
  rcases lt_or_eq_of_le h0 with h | h
  · left
    have := (hsp i (by omega)).mpr h
    omega
  · right
    refine ⟨?_, h.symm⟩
    have h4 : ¬ i < k := fun hh => absurd ((hsp i (by omega)).mp hh) (by rw [h]; exact lt_irrefl _)
    rcases Nat.eq_zero_or_pos i with h5 | h5
    · omega
    · have := (hsp (i - 1) (by omega)).mpr (by rw [← h]; exact getElem_lt_of_pairwise hx (by omega) (by omega))
      omega

theorem line_right {x0 x1 : K} {y0 y1 : Y} (h : x1 - x0 ≠ 0) : line x0 y0 x1 y1 x1 = y1 := by
  simp only [line, div_self h]; module

theorem line_left {x0 x1 : K} {y0 y1 : Y} : line x0 y0 x1 y1 x0 = y0 := by
  simp [line]

/-- Evaluation inside the range, whatever the coefficients stored before the last `Initialize`, none here. -/
theorem privEvalBase_range {xs : List K} {ys : List Y} (ht : Table xs ys) (s : Interp1d K Y) (ha : s.a = []) (hb : s.b = [])
    (h : 0 < xs.length) {i : Nat} (hi : i + 1 < xs.length) {x : K} (h0 : xs[i] ≤ x) (h1 : x ≤ xs[i + 1]) :
    privEvalBase (built s xs ys h (xs.length - 1)) x =
      .ok (line xs[i] (ys[i]'(by have := ht.sizes; omega)) xs[i + 1] (ys[i + 1]'(by have := ht.sizes; omega)) x) := by
  have hs := ht.sizes
  have hx := ht.increasing
  have hd : ∀ j (hj : j + 1 < xs.length), xs[j + 1] - xs[j] ≠ 0 := fun j hj =>
    sub_ne_zero.mpr (ne_of_gt (getElem_lt_of_pairwise hx (Nat.lt_succ_self j) hj))
  obtain ⟨k, hk, hcase⟩ := lowerBound_cell hx hi h0 h1
  rw [privEvalBase_built h s ha hb x k hk (by omega) (by omega)]
  congr 1
  rcases hcase with rfl | ⟨rfl, hxi⟩
  · rw [Nat.add_sub_cancel, line_eq hi hs (hd i hi)]
  · rcases Nat.eq_zero_or_pos k with h5 | h5
    · subst h5; rw [line_eq hi hs (hd _ hi)]
    · obtain ⟨j, rfl⟩ : ∃ j, k = j + 1 := ⟨k - 1, by omega⟩
      rw [Nat.add_sub_cancel, line_eq (by omega) hs (hd j (by omega)), hxi, line_right (hd j (by omega)), line_left]

/-- What the client program computes, for a table. -/
theorem interp1d_eq (B : Build) {m : InterpMethod} {kind : Interp1dKind} (hm : make m = .ok kind) {xs : List K} {ys : List Y}
    (ht : Table xs ys) (x : K) :
    interp1d B m xs ys x = eval kind (built (fresh K Y) xs ys (by have := ht.two; omega) (xs.length - 1)) x := by
  simp only [interp1d, hm, Res.ok_bind, run_init B (show 0 < xs.length by have := ht.two; omega) ht.sizes ht.increasing]

theorem range_of_cell {xs : List K} (hx : xs.Pairwise (· < ·)) {i : Nat} (hi : i + 1 < xs.length) {x : K}
    (h0 : xs[i] ≤ x) (h1 : x ≤ xs[i + 1]) : xs[0] ≤ x ∧ x ≤ xs[xs.length - 1] :=
  ⟨le_trans (getElem_le_of_pairwise hx (Nat.zero_le i) (by omega)) h0,
    le_trans h1 (getElem_le_of_pairwise hx (by omega) (by omega))⟩

/-- In the range the three classes evaluate alike. -/
theorem eval_range (kind : Interp1dKind) {xs : List K} {ys : List Y} (s : Interp1d K Y) (h : 0 < xs.length) (n : Nat) {x : K}
    (h0 : xs[0] ≤ x) (h1 : x ≤ xs[xs.length - 1]) :
    eval kind (built s xs ys h n) x = privEvalBase (built s xs ys h n) x := by
  cases kind <;>
    simp [eval, privEvalLinear, privEvalExtrapolate, privEvalSaturate, built, not_lt.mpr h0, not_lt.mpr h1]

theorem make_ok {m : InterpMethod} (hm : m ≠ .BSPLINE) : ∃ kind, make m = .ok kind := by
  cases m <;> simp [make] at *

/-- Every point of the range is in a cell. -/
theorem exists_cell {xs : List K} (hx : xs.Pairwise (· < ·)) (h2 : 2 ≤ xs.length) {x : K}
    (h0 : xs[0] ≤ x) (h1 : x ≤ xs[xs.length - 1]) :
    ∃ i, ∃ hi : i + 1 < xs.length, xs[i] ≤ x ∧ x ≤ xs[i + 1] := by
  obtain ⟨k, hk, hkl, hsp⟩ := exists_lowerBound hx x
  have hk1 : k < xs.length := by
    by_contra hc
    exact absurd ((hsp (xs.length - 1) (by omega)).mp (by omega)) (not_lt.mpr h1)
  have hle : x ≤ xs[k] := not_lt.mp (fun h => absurd ((hsp k hk1).mpr h) (lt_irrefl _))
  rcases Nat.eq_zero_or_pos k with h5 | h5
  · subst h5
    exact ⟨0, by omega, h0, le_trans hle (getElem_le_of_pairwise hx (by omega) (by omega))⟩
  · obtain ⟨j, rfl⟩ : ∃ j, k = j + 1 := ⟨k - 1, by omega⟩
    exact ⟨j, hk1, le_of_lt ((hsp j (by omega)).mp (by omega)), hle⟩

end MU.Interp1d
