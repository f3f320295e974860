import Verif.Props.Accuracy
import Verif.Props.Agreement
import Verif.Lemmas.LoadGrid
import Mathlib.Topology.UniformSpace.HeineCantor
import Mathlib.Topology.Order.Compact
import Mathlib.Topology.MetricSpace.ProperSpace

set_option linter.unusedSectionVars false

/-!
# C126: refinement converges to every continuous function
-/

namespace MU
open Spec Finset

/-! ## Uniform continuity in the form used below -/

theorem exists_modulus {a b : ℝ} {f : ℝ → ℝ} (hf : ContinuousOn f (Set.Icc a b)) {ε : ℝ} (hε : 0 < ε) :
    ∃ δ > 0, ∀ s ∈ Set.Icc a b, ∀ t ∈ Set.Icc a b, |s - t| ≤ δ → |f s - f t| ≤ ε := by
  have hu := isCompact_Icc.uniformContinuousOn_of_continuous hf
  obtain ⟨δ, hδ, h⟩ := Metric.uniformContinuousOn_iff.1 hu ε hε
  refine ⟨δ / 2, by positivity, fun s hs t ht hst => ?_⟩
  have := h s hs t ht (by rw [Real.dist_eq]; linarith)
  rw [Real.dist_eq] at this
  exact this.le

theorem line_near {a b u v x y ε : ℝ} (hab : a < b) (h0 : a ≤ x) (h1 : x ≤ b) (hu : |u - y| ≤ ε) (hv : |v - y| ≤ ε) : |line a u b v x - y| ≤ ε := by
  obtain ⟨l, r⟩ := line_bounds (y0 := u) (y1 := v) hab h0 h1
  rw [abs_le] at *
  constructor
  · rcases min_choice u v with h | h <;> rw [h] at l <;> linarith [hu.1, hv.1]
  · rcases max_choice u v with h | h <;> rw [h] at r <;> linarith [hu.2, hv.2]

/-! ## Interpolation in one variable -/

/-- C126: for each continuous function `f` on `[a, b]` and each `ε`, all tables of values of `f` from `a` to `b` that are fine enough are
interpolated within `ε` of `f` on the whole range. -/
theorem C126_interp1d (B : Build) {m : InterpMethod} (hm : m ≠ .BSPLINE) {a b : ℝ} {f : ℝ → ℝ} (hf : ContinuousOn f (Set.Icc a b)) {ε : ℝ} (hε : 0 < ε) :
    ∃ δ > 0, ∀ xs : List ℝ, (h2 : 2 ≤ xs.length) → xs.Pairwise (· < ·) → xs[0] = a → xs[xs.length - 1] = b →
      (∀ i (hi : i + 1 < xs.length), xs[i + 1] - xs[i] ≤ δ) →
      ∀ x, a ≤ x → x ≤ b → ∃ v, interp1d B m xs (xs.map f) x = .ok v ∧ |v - f x| ≤ ε := by
  obtain ⟨δ, hδ, hmod⟩ := exists_modulus hf hε
  refine ⟨δ, hδ, fun xs h2 hx ha hb hh x h0 h1 => ?_⟩
  have ht : Table xs (xs.map f) := ⟨h2, hx, by simp⟩
  obtain ⟨i, hi, ha', hb'⟩ := Interp1d.exists_cell hx h2 (ha ▸ h0) (hb ▸ h1)
  have hlt : xs[i] < xs[i + 1] := List.pairwise_iff_getElem.1 hx i (i + 1) (by omega) hi (by omega)
  refine ⟨_, C01_piecewise_affine B hm ht hi (by simpa using hi) ha' hb', ?_⟩
  simp only [List.getElem_map]
  have g0 : a ≤ xs[i] := ha ▸ pairwise_le_first hx (by omega)
  have g1 : xs[i + 1] ≤ b := hb ▸ pairwise_le_last hx hi
  have hd := hh i hi
  refine line_near hlt ha' hb' (hmod _ ⟨g0, by linarith⟩ _ ⟨h0, h1⟩ ?_) (hmod _ ⟨by linarith, g1⟩ _ ⟨h0, h1⟩ ?_)
  · rw [abs_le]; constructor <;> linarith
  · rw [abs_le]; constructor <;> linarith

/-! ## Integration -/

theorem panel_near {f : ℝ → ℝ} {a b ε : ℝ} (hab : a < b) (hf : ContinuousOn f (Set.Icc a b))
    (hmod : ∀ s ∈ Set.Icc a b, ∀ t ∈ Set.Icc a b, |f s - f t| ≤ ε) :
    |(b - a) * (f a + f b) / 2 - ∫ t in a..b, f t| ≤ ε * (b - a) := by
  have hi : IntervalIntegrable f MeasureTheory.volume a b := by
    refine ContinuousOn.intervalIntegrable ?_
    rwa [Set.uIcc_of_le hab.le]
  have e : (b - a) * (f a + f b) / 2 - ∫ t in a..b, f t = ∫ t in a..b, ((f a + f b) / 2 - f t) := by
    rw [intervalIntegral.integral_sub (by simp) hi, intervalIntegral.integral_const, smul_eq_mul]
    ring
  rw [e, ← Real.norm_eq_abs]
  refine (intervalIntegral.norm_integral_le_of_norm_le_const (C := ε) (fun t ht => ?_)).trans (by rw [abs_of_pos (by linarith)])
  rw [Set.uIoc_of_le hab.le] at ht
  have ht' : t ∈ Set.Icc a b := ⟨ht.1.le, ht.2⟩
  have h1 := hmod a (Set.left_mem_Icc.2 hab.le) t ht'
  have h2 := hmod b (Set.right_mem_Icc.2 hab.le) t ht'
  rw [Real.norm_eq_abs]
  rw [abs_le] at *
  constructor <;> linarith [h1.1, h1.2, h2.1, h2.2]

theorem panels_near {f : ℝ → ℝ} {ε δ : ℝ} (x : Nat → ℝ) (n : Nat) (hx : ∀ i, i < n → x i < x (i + 1)) (hd : ∀ i, i < n → x (i + 1) - x i ≤ δ)
    (hf : ContinuousOn f (Set.Icc (x 0) (x n)))
    (hmod : ∀ s ∈ Set.Icc (x 0) (x n), ∀ t ∈ Set.Icc (x 0) (x n), |s - t| ≤ δ → |f s - f t| ≤ ε) :
    |panels n x (fun i => f (x i)) - ∫ t in x 0..x n, f t| ≤ ε * (x n - x 0) := by
  have hmono : ∀ i, i ≤ n → x 0 ≤ x i := by
    intro i
    induction i with
    | zero => intro _; exact le_refl _
    | succ i ih => intro h; exact (ih (by omega)).trans (hx i (by omega)).le
  have hmono' : ∀ k i, i + k = n → x i ≤ x n := by
    intro k
    induction k with
    | zero => intro i h; simp at h; rw [h]
    | succ k ih => intro i h; exact (hx i (by omega)).le.trans (ih (i + 1) (by omega))
  have hsub : ∀ i, i < n → Set.Icc (x i) (x (i + 1)) ⊆ Set.Icc (x 0) (x n) := fun i hi =>
    Set.Icc_subset_Icc (hmono i (by omega)) (hmono' (n - (i + 1)) (i + 1) (by omega))
  rw [← intervalIntegral.sum_integral_adjacent_intervals (fun i hi => by
    refine ContinuousOn.intervalIntegrable ?_
    rw [Set.uIcc_of_le (hx i hi).le]
    exact hf.mono (hsub i hi)), panels, ← sum_sub_distrib]
  have tele : x n - x 0 = ∑ i ∈ range n, (x (i + 1) - x i) := (sum_range_sub x n).symm
  rw [tele, mul_sum]
  refine (abs_sum_le_sum_abs _ _).trans (sum_le_sum (fun i hi => ?_))
  have hi := mem_range.1 hi
  refine panel_near (hx i hi) (hf.mono (hsub i hi)) (fun s hs t ht => hmod s (hsub i hi hs) t (hsub i hi ht) ?_)
  have := hd i hi
  rw [abs_le]
  constructor <;> linarith [hs.1, hs.2, ht.1, ht.2]

/-- C126: for each continuous function `f` on `[a, b]` and each `ε`, `Trapz(x, y)` is within `ε` of the integral of `f` for all samples from `a` to
`b` that are fine enough. -/
theorem C126_trapz (B : Build) {a b : ℝ} (hab : a < b) {f : ℝ → ℝ} (hf : ContinuousOn f (Set.Icc a b)) {ε : ℝ} (hε : 0 < ε) :
    ∃ δ > 0, ∀ xs : List ℝ, (h2 : 2 ≤ xs.length) → xs.length < 2 ^ 64 → xs.Pairwise (· < ·) → xs[0] = a → xs[xs.length - 1] = b →
      (∀ i (hi : i + 1 < xs.length), xs[i + 1] - xs[i] ≤ δ) →
      ∃ v, trapz B xs (xs.map f) = .ok v ∧ |v - ∫ t in a..b, f t| ≤ ε := by
  have hba : 0 < b - a := by linarith
  obtain ⟨δ, hδ, hmod⟩ := exists_modulus hf (ε := ε / (b - a)) (by positivity)
  refine ⟨δ, hδ, fun xs h2 h64 hx ha hb hh => ?_⟩
  have e : ∀ i (hi : i < xs.length), xs.getD i 0 = xs[i] := fun i hi => by simp [List.getD, List.getElem?_eq_getElem hi]
  refine ⟨_, trapz_ok B (by simpa using h2) (by simpa using h64) (by simp), ?_⟩
  rw [List.length_map, panels_congr (x' := fun i => xs.getD i 0) (y' := fun i => f (xs.getD i 0)) (fun i _ => rfl) (fun i hi => by
    have hi : i < xs.length := by omega
    simp [List.getD, List.getElem?_eq_getElem hi])]
  have ea := (e 0 (by omega)).trans ha
  have eb := (e (xs.length - 1) (by omega)).trans hb
  have := panels_near (f := f) (ε := ε / (b - a)) (δ := δ) (fun i => xs.getD i 0) (xs.length - 1) (fun i hi => by
      rw [e i (by omega), e (i + 1) (by omega)]
      exact List.pairwise_iff_getElem.1 hx i (i + 1) (by omega) (by omega) (by omega))
    (fun i hi => by
      rw [e i (by omega), e (i + 1) (by omega)]
      exact hh i (by omega)) (by rw [ea, eb]; exact hf) (by rw [ea, eb]; exact hmod)
  rw [ea, eb, div_mul_cancel₀ _ hba.ne'] at this
  exact this

theorem settings_method (h : List (Integrate1d.Op ℝ)) : ∀ t : Settings ℝ, (∀ m, .setMethod m ∉ h) → (t.after h).method = t.method := by
  induction h with
  | nil => intro t _; rfl
  | cons op h ih =>
    intro t hm
    have : (t.next op).method = t.method := by
      cases op with
      | setMethod m => exact absurd List.mem_cons_self (hm m)
      | _ => rfl
    rw [← this]
    exact ih _ (fun m hmem => hm m (List.mem_cons_of_mem _ hmem))

/-- C126, `Integrate1d`: for each function continuous on `[a, b]` and each `ε` there is a number of points from which on `Get` returns the integral
within `ε`, whatever the history of bounds setters and `Get` calls that led to the bounds `a` and `b`. -/
theorem C126_integrate1d {a b : ℝ} (hab : a < b) {F : ℝ → ℝ} (hF : ContinuousOn F (Set.Icc a b)) {ε : ℝ} (hε : 0 < ε) :
    ∃ N : Nat, ∀ n, 2 ≤ n → N ≤ n → n < 2 ^ 32 → ∀ (a₀ b₀ : ℝ) (h : List (Integrate1d.Op ℝ)), (∀ m, .setMethod m ∉ h) →
      ((⟨a₀, b₀, .TRAPEZOIDAL⟩ : Settings ℝ).after h).xmin = a → ((⟨a₀, b₀, .TRAPEZOIDAL⟩ : Settings ℝ).after h).xmax = b →
      ∃ v, (Integrate1d.get.run (Integrate1d.after ((Source.function F).new a₀ b₀ n) h)).1 = .ok v ∧ |v - ∫ t in a..b, F t| ≤ ε := by
  have hba : 0 < b - a := by linarith
  obtain ⟨δ, hδ, hmod⟩ := exists_modulus hF (ε := ε / (b - a)) (by positivity)
  obtain ⟨N, hN⟩ := exists_nat_ge ((b - a) / δ + 1)
  refine ⟨N, fun n h2 hNn h32 a₀ b₀ h hm ha hb => ?_⟩
  have hn1 : (1 : ℝ) ≤ (n : ℝ) - 1 := by
    have : (2 : ℝ) ≤ n := by exact_mod_cast h2
    linarith
  have hn : ((n - 1 : Nat) : ℝ) = (n : ℝ) - 1 := by rw [Nat.cast_sub (by omega : 1 ≤ n)]; simp
  have hdx : 0 < (b - a) / ((n : ℝ) - 1) := div_pos (by linarith) (by linarith)
  have hle : (b - a) / ((n : ℝ) - 1) ≤ δ := by
    have : (N : ℝ) ≤ n := by exact_mod_cast hNn
    rw [div_le_iff₀ (by linarith), mul_comm, ← div_le_iff₀ hδ]
    linarith
  have hs : ∀ i : Nat, point a b n (i + 1) - point a b n i = (b - a) / ((n : ℝ) - 1) := by
    intro i
    unfold point
    push_cast
    ring
  have h0 : point a b n 0 = a := by simp [point]
  have h1 : point a b n (n - 1) = b := by
    unfold point
    rw [hn, mul_div_cancel₀ _ (by linarith)]
    ring
  refine ⟨_, by
    rw [C42_bounds_partial (Source.function F) n ⟨h2, h32, trivial⟩ a₀ b₀ h hm, Settings.expected, settings_method h _ hm], ?_⟩
  rw [ha, hb]
  have := panels_near (f := F) (ε := ε / (b - a)) (δ := δ) (point a b n) (n - 1) (fun i _ => by linarith [hs i]) (fun i _ => by rw [hs i]; exact hle)
    (by rw [h0, h1]; exact hF) (by rw [h0, h1]; exact hmod)
  rw [h0, h1, div_mul_cancel₀ _ hba.ne'] at this
  exact this

/-! ## Interpolation in any number of variables -/

/-- `p` is a point of the cell: each of its coordinates is between the nodes of the cell. -/
inductive InCell : (cell : List (Nat × ℝ × ℝ)) → (p : List ℝ) → Prop
  | nil : InCell [] []
  | cons {c a b cell t p} : a ≤ t → t ≤ b → InCell cell p → InCell ((c, a, b) :: cell) (t :: p)

theorem tensor_near {ε y : ℝ} {grids : List (List ℝ)} {cell : List (Nat × ℝ × ℝ)} {x : List ℝ} (hinc : ∀ g ∈ grids, g.Pairwise (· < ·))
    (hx : Brackets grids cell x) : ∀ {F : List Nat → ℝ}, (∀ idx p, IsNode grids idx p → InCell cell p → |F idx - y| ≤ ε) → |tensor cell F x - y| ≤ ε := by
  induction hx with
  | nil => intro F h; exact h [] [] .nil .nil
  | @cons g gs c a b cell x xs ga gb h0 h1 hbr ih =>
    intro F h
    obtain ⟨ha, ha'⟩ := List.getElem?_eq_some_iff.1 ga
    obtain ⟨hb, hb'⟩ := List.getElem?_eq_some_iff.1 gb
    have hab : a < b := by
      rw [← ha', ← hb']
      exact List.pairwise_iff_getElem.1 (hinc g List.mem_cons_self) c (c + 1) ha hb (by omega)
    have hinc' : ∀ g ∈ gs, g.Pairwise (· < ·) := fun g hg => hinc g (List.mem_cons_of_mem _ hg)
    exact line_near hab h0 h1
      (ih hinc' (fun idx p hp hc => h _ (a :: p) (.cons ga hp) (.cons (le_refl a) hab.le hc)))
      (ih hinc' (fun idx p hp hc => h _ (b :: p) (.cons gb hp) (.cons hab.le (le_refl b) hc)))

/-- Two points of a cell whose sides are at most `δ` have coordinates at most `δ` apart. -/
theorem InCell.near {δ : ℝ} {cell : List (Nat × ℝ × ℝ)} {p : List ℝ} (hp : InCell cell p) : ∀ {q : List ℝ}, InCell cell q →
    (∀ e ∈ cell, e.2.2 - e.2.1 ≤ δ) → List.Forall₂ (fun s t => |s - t| ≤ δ) p q := by
  induction hp with
  | nil => intro q hq _; cases hq; exact .nil
  | cons h0 h1 _ ih =>
    intro q hq hd
    cases hq with
    | cons k0 k1 hq =>
      refine .cons ?_ (ih hq (fun e he => hd e (List.mem_cons_of_mem _ he)))
      have := hd _ List.mem_cons_self
      simp only at this
      rw [abs_le]
      constructor <;> linarith

theorem Brackets.inCell {grids : List (List ℝ)} {cell : List (Nat × ℝ × ℝ)} {x : List ℝ} (hx : Brackets grids cell x) : InCell cell x := by
  induction hx with
  | nil => exact .nil
  | cons _ _ h0 h1 _ ih => exact .cons h0 h1 ih

theorem Brackets.side {δ : ℝ} {grids : List (List ℝ)} {cell : List (Nat × ℝ × ℝ)} {x : List ℝ} (hx : Brackets grids cell x)
    (hd : ∀ g ∈ grids, ∀ i (hi : i + 1 < g.length), g[i + 1] - g[i] ≤ δ) : ∀ e ∈ cell, e.2.2 - e.2.1 ≤ δ := by
  induction hx with
  | nil => intro e he; cases he
  | @cons g gs c a b cell x xs ga gb _ _ _ ih =>
    intro e he
    rcases List.mem_cons.1 he with rfl | he
    · obtain ⟨ha, ha'⟩ := List.getElem?_eq_some_iff.1 ga
      obtain ⟨hb, hb'⟩ := List.getElem?_eq_some_iff.1 gb
      have := hd g List.mem_cons_self c hb
      simp only [← ha', ← hb']
      exact this
    · exact ih (fun g hg => hd g (List.mem_cons_of_mem _ hg)) e he

theorem Spec.IsNode.inBox {grids : List (List ℝ)} {idx : List Nat} {p : List ℝ} (h : IsNode grids idx p) (hinc : ∀ g ∈ grids, g.Pairwise (· < ·)) :
    InBox grids p := by
  induction h with
  | nil => exact .nil
  | @cons g gs i is x xs gi _ ih =>
    obtain ⟨hi, hi'⟩ := List.getElem?_eq_some_iff.1 gi
    have hg := hinc g List.mem_cons_self
    have hne : g ≠ [] := by rintro rfl; simp at hi
    refine .cons (a := g[0]'(by omega)) (b := g[g.length - 1]'(by omega)) ?_ ?_ ?_ ?_ (ih (fun g hg => hinc g (List.mem_cons_of_mem _ hg)))
    · rw [List.head?_eq_getElem?, List.getElem?_eq_getElem]
    · rw [List.getLast?_eq_getElem?, List.getElem?_eq_getElem]
    · rw [← hi']; exact pairwise_le_first hg hi
    · rw [← hi']; exact pairwise_le_last hg hi

/-- The box of lower corner `lo` and upper corner `hi`. -/
def Box (lo hi : List ℝ) (x : List ℝ) : Prop := List.Forall₂ (· ≤ ·) lo x ∧ List.Forall₂ (· ≤ ·) x hi

/-- The axes go from the lower corner to the upper corner. -/
def Spans (grids : List (List ℝ)) (lo hi : List ℝ) : Prop :=
  List.Forall₂ (fun g a => g.head? = some a) grids lo ∧ List.Forall₂ (fun g b => g.getLast? = some b) grids hi

theorem Spans.inBox_iff {grids : List (List ℝ)} {lo hi : List ℝ} (h : Spans grids lo hi) {x : List ℝ} : InBox grids x ↔ Box lo hi x := by
  obtain ⟨h1, h2⟩ := h
  constructor
  · intro hx
    induction hx generalizing lo hi with
    | nil => cases h1; cases h2; exact ⟨.nil, .nil⟩
    | cons ga gb l0 l1 _ ih =>
      cases h1 with
      | cons a1 a2 =>
        cases h2 with
        | cons b1 b2 =>
          rw [ga] at a1
          rw [gb] at b1
          injection a1 with a1
          injection b1 with b1
          subst a1 b1
          obtain ⟨u, v⟩ := ih a2 b2
          exact ⟨.cons l0 u, .cons l1 v⟩
  · rintro ⟨u, v⟩
    induction h1 generalizing hi x with
    | nil => cases h2; cases u; exact .nil
    | cons a1 a2 ih =>
      cases h2 with
      | cons b1 b2 =>
        cases u with
        | cons u1 u2 =>
          cases v with
          | cons v1 v2 => exact .cons a1 b1 u1 v1 (ih b2 u2 v2)

/-- `f` is continuous on the box: near each of its points, moving all coordinates a little changes the value a little. -/
def ContinuousOnBox (f : List ℝ → ℝ) (lo hi : List ℝ) : Prop :=
  ∀ x, Box lo hi x → ∀ ε > 0, ∃ δ > 0, ∀ y, Box lo hi y → List.Forall₂ (fun s t => |s - t| ≤ δ) x y → |f x - f y| ≤ ε

theorem forall₂_ofFn {n : Nat} {R : ℝ → ℝ → Prop} {u v : Fin n → ℝ} : List.Forall₂ R (List.ofFn u) (List.ofFn v) ↔ ∀ i, R (u i) (v i) := by
  rw [List.forall₂_iff_get]
  constructor
  · rintro ⟨_, h⟩ i
    have := h i.1 (by simp) (by simp)
    simpa using this
  · intro h
    exact ⟨by simp, fun i h1 h2 => by simpa using h ⟨i, by simpa using h1⟩⟩

/-- A function continuous on a box is uniformly continuous on it. -/
theorem ContinuousOnBox.uniform {f : List ℝ → ℝ} {lo hi : List ℝ} (hf : ContinuousOnBox f lo hi) {ε : ℝ} (hε : 0 < ε) :
    ∃ δ > 0, ∀ x, Box lo hi x → ∀ y, Box lo hi y → List.Forall₂ (fun s t => |s - t| ≤ δ) x y → |f x - f y| ≤ ε := by
  by_cases hlen : lo.length = hi.length
  swap
  · refine ⟨1, one_pos, fun x hx => absurd (hx.1.length_eq.trans hx.2.length_eq) hlen⟩
  obtain ⟨n, hn⟩ : ∃ n, lo.length = n := ⟨_, rfl⟩
  obtain ⟨a, rfl⟩ : ∃ a : Fin n → ℝ, lo = List.ofFn a := ⟨fun i => lo[i]'(by omega), by subst hn; simp⟩
  obtain ⟨b, rfl⟩ : ∃ b : Fin n → ℝ, hi = List.ofFn b := ⟨fun i => hi[i]'(by omega), by
    apply List.ext_getElem <;> simp [← hlen]⟩
  have hbox : ∀ u : Fin n → ℝ, Box (List.ofFn a) (List.ofFn b) (List.ofFn u) ↔ u ∈ Set.Icc a b := by
    intro u
    simp only [Box, forall₂_ofFn, Set.mem_Icc, Pi.le_def]
  have hc : ContinuousOn (fun u : Fin n → ℝ => f (List.ofFn u)) (Set.Icc a b) := by
    rw [Metric.continuousOn_iff]
    intro u hu e he
    obtain ⟨d, hd, h⟩ := hf (List.ofFn u) ((hbox u).2 hu) (e / 2) (by positivity)
    refine ⟨d, hd, fun w hw hwu => ?_⟩
    have := h (List.ofFn w) ((hbox w).2 hw) (forall₂_ofFn.2 (fun i => by
      have := (dist_le_pi_dist w u i).trans hwu.le
      rw [Real.dist_eq, abs_sub_comm] at this
      exact this))
    rw [Real.dist_eq, abs_sub_comm]
    linarith
  have hu := isCompact_Icc.uniformContinuousOn_of_continuous hc
  obtain ⟨δ, hδ, h⟩ := Metric.uniformContinuousOn_iff.1 hu ε hε
  refine ⟨δ / 2, by positivity, fun x hx y hy hxy => ?_⟩
  have hof : ∀ x, Box (List.ofFn a) (List.ofFn b) x → ∃ u : Fin n → ℝ, x = List.ofFn u := by
    intro x hx
    have hl := hx.1.length_eq
    simp only [List.length_ofFn] at hl
    exact ⟨fun i => x[i]'(by omega), by apply List.ext_getElem <;> simp [hl]⟩
  obtain ⟨u, rfl⟩ := hof x hx
  obtain ⟨w, rfl⟩ := hof y hy
  have := h u ((hbox u).1 hx) w ((hbox w).1 hy) (by
    refine lt_of_le_of_lt ((dist_pi_le_iff (r := δ / 2) (by positivity)).2 (fun i => ?_)) (by linarith)
    rw [Real.dist_eq]
    exact forall₂_ofFn.1 hxy i)
  rw [Real.dist_eq] at this
  exact this.le

/-- C126, `RegularGridInterpolator` in any dimension: for each function `f` continuous on a box and each `ε` there is a `δ` such that every
interpolator whose axes go from one corner of the box to the other in steps of at most `δ`, and whose data are the values of `f` at the nodes, is
within `ε` of `f` on the whole box, with and without the check of the bounds. -/
theorem C126_multilinear {f : List ℝ → ℝ} {lo hi : List ℝ} (hf : ContinuousOnBox f lo hi) {ε : ℝ} (hε : 0 < ε) :
    ∃ δ > 0, ∀ (dim : Nat) (grids : List (List ℝ)) (F : List Nat → ℝ) (s : RGI ℝ), Loaded dim grids F s → Spans grids lo hi →
      (∀ g ∈ grids, 2 ≤ g.length) → (∀ g ∈ grids, ∀ i (hi : i + 1 < g.length), g[i + 1] - g[i] ≤ δ) →
      (∀ idx p, IsNode grids idx p → F idx = f p) →
      ∀ x, Box lo hi x → ∀ bound_check, ∃ v, RGI.interpolate s x bound_check = .ok v ∧ |v - f x| ≤ ε := by
  obtain ⟨δ, hδ, hmod⟩ := hf.uniform hε
  refine ⟨δ, hδ, fun dim grids F s h hspan h2 hd hF x hx bound_check => ?_⟩
  obtain ⟨hax, hlen, -⟩ := RGI.Loaded.fields h
  have hinc := hax.increasing
  have hin : InBox grids x := hspan.inBox_iff.2 hx
  obtain ⟨cell, hbr⟩ := C18_cell_exists h h2 hin
  refine ⟨tensor cell F x, ?_, tensor_near hinc hbr (fun idx p hp hc => ?_)⟩
  · cases bound_check with
    | false => exact C18_tensor_product h hbr
    | true =>
      obtain ⟨y, hy1, hy2⟩ := (C19_bound_check h (by rw [RGI.Brackets.len hbr, hlen])).2 hin
      rw [hy1, ← hy2, C18_tensor_product h hbr]
  · rw [hF idx p hp]
    exact hmod p (hspan.inBox_iff.1 (hp.inBox hinc)) x hx (hc.near (Brackets.inCell hbr) (Brackets.side hbr hd))

/-- C126, `Interp2d`: for each function `f` continuous on a rectangle and each `ε`, all tables of values of `f` on the rectangle that are fine enough
are interpolated within `ε` of `f` on the whole rectangle. -/
theorem C126_interp2d (B : Build) {a b c d : ℝ} {f : ℝ → ℝ → ℝ} (hf : ContinuousOn (fun p : ℝ × ℝ => f p.1 p.2) (Set.Icc a b ×ˢ Set.Icc c d)) {ε : ℝ}
    (hε : 0 < ε) :
    ∃ δ > 0, ∀ (xs ys data : List ℝ) (g : Grid xs ys data), xs[0]'(by have := g.twox; omega) = a → xs[xs.length - 1]'(by have := g.twox; omega) = b →
      ys[0]'(by have := g.twoy; omega) = c → ys[ys.length - 1]'(by have := g.twoy; omega) = d →
      (∀ i (hi : i + 1 < xs.length), xs[i + 1] - xs[i] ≤ δ) → (∀ j (hj : j + 1 < ys.length), ys[j + 1] - ys[j] ≤ δ) →
      (∀ i j (hi : i < xs.length) (hj : j < ys.length), g.at i j hi hj = f xs[i] ys[j]) →
      ∀ x y, a ≤ x → x ≤ b → c ≤ y → y ≤ d → ∃ v, interp2d B .LINEAR xs ys data x y = .ok v ∧ |v - f x y| ≤ ε := by
  have hc : ContinuousOnBox (fun l => f (l.getD 0 0) (l.getD 1 0)) [a, c] [b, d] := by
    rintro x ⟨h1, h2⟩ e he
    cases h1 with | @cons _ x1 _ _ p1 h1 => cases h1 with | @cons _ x2 _ _ p2 h1 => cases h1 with | nil =>
    cases h2 with | cons q1 h2 => cases h2 with | cons q2 h2 =>
    obtain ⟨δ, hδ, h⟩ := Metric.continuousOn_iff.1 hf (x1, x2) ⟨⟨p1, q1⟩, ⟨p2, q2⟩⟩ e he
    refine ⟨δ / 2, by positivity, ?_⟩
    rintro y ⟨k1, k2⟩ hxy
    cases k1 with | @cons _ y1 _ _ u1 k1 => cases k1 with | @cons _ y2 _ _ u2 k1 => cases k1 with | nil =>
    cases k2 with | cons v1 k2 => cases k2 with | cons v2 k2 =>
    cases hxy with | cons d1 hxy => cases hxy with | cons d2 hxy =>
    have := h (y1, y2) ⟨⟨u1, v1⟩, ⟨u2, v2⟩⟩ (by
      rw [Prod.dist_eq, max_lt_iff, Real.dist_eq, Real.dist_eq, abs_sub_comm, abs_sub_comm y2]
      constructor <;> simp only <;> linarith)
    rw [Real.dist_eq, abs_sub_comm] at this
    simpa using this.le
  obtain ⟨δ, hδ, h⟩ := C126_multilinear hc hε
  refine ⟨δ, hδ, fun xs ys data g xa xb ya yb hdx hdy hF x y h1 h2 h3 h4 => ?_⟩
  have h2x := g.twox
  have h2y := g.twoy
  have hax : Axes [xs, ys] := ⟨by simp, by simp; constructor <;> rintro rfl <;> simp_all, by simpa using ⟨g.incx, g.incy⟩⟩
  obtain ⟨s, hs⟩ := exists_loaded hax (fun idx => data.getD (idx.getD 0 0 * ys.length + idx.getD 1 0) 0)
  have hat : ∀ i j (hi : i < xs.length) (hj : j < ys.length), data.getD (i * ys.length + j) 0 = g.at i j hi hj := by
    intro i j hi hj
    simp [Grid.at, List.getElem?_eq_getElem (g.idx_lt hi hj)]
  obtain ⟨v, hv1, hv2⟩ := C120_two_axes B g hs (fun i j hi hj => by simpa using hat i j hi hj) (xa ▸ h1) (xb ▸ h2) (ya ▸ h3) (yb ▸ h4) false
  obtain ⟨w, hw1, hw2⟩ := h 2 [xs, ys] _ s hs
    ⟨.cons (by rw [List.head?_eq_getElem?, List.getElem?_eq_getElem (by omega), xa]) (.cons (by rw [List.head?_eq_getElem?, List.getElem?_eq_getElem (by omega), ya]) .nil),
      .cons (by rw [List.getLast?_eq_getElem?, List.getElem?_eq_getElem (by omega), xb]) (.cons (by rw [List.getLast?_eq_getElem?, List.getElem?_eq_getElem (by omega), yb]) .nil)⟩
    (by simpa using ⟨h2x, h2y⟩) (by
      intro q hq
      rcases List.mem_cons.1 hq with rfl | hq
      · exact hdx
      · rw [List.mem_singleton.1 hq]; exact hdy)
    (fun idx p hp => by
      cases hp with | @cons _ _ i _ u _ e1 hp => cases hp with | @cons _ _ j _ w _ e2 hp => cases hp with | nil =>
      obtain ⟨hi, rfl⟩ := List.getElem?_eq_some_iff.1 e1
      obtain ⟨hj, rfl⟩ := List.getElem?_eq_some_iff.1 e2
      simp only [List.getD_cons_zero, List.getD_cons_succ]
      rw [hat i j hi hj, hF])
    [x, y] ⟨.cons h1 (.cons h3 .nil), .cons h2 (.cons h4 .nil)⟩ false
  rw [hv1] at hw1
  injection hw1 with hw1
  subst hw1
  exact ⟨v, hv2, by simpa using hw2⟩

/-! ## Such tables exist -/

/-- `n + 1` equally spaced nodes from 0 to 1. -/
noncomputable def unitAxis (n : Nat) : List ℝ := (List.range (n + 1)).map fun i : Nat => (i : ℝ) / n

theorem unitAxis_length (n : Nat) : (unitAxis n).length = n + 1 := by simp [unitAxis]

theorem unitAxis_get {n i : Nat} (hi : i < (unitAxis n).length) : (unitAxis n)[i] = (i : ℝ) / n := by simp [unitAxis]

theorem unitAxis_inc {n : Nat} (hn : 0 < n) : (unitAxis n).Pairwise (· < ·) := by
  rw [List.pairwise_iff_getElem]
  intro i j hi hj hij
  rw [unitAxis_get, unitAxis_get]
  have : (0 : ℝ) < n := by exact_mod_cast hn
  have : (i : ℝ) < j := by exact_mod_cast hij
  gcongr

theorem unitAxis_step {n i : Nat} (hi : i + 1 < (unitAxis n).length) : (unitAxis n)[i + 1] - (unitAxis n)[i] = 1 / n := by
  rw [unitAxis_get, unitAxis_get]
  push_cast
  ring

theorem unitAxis_last {n : Nat} (hn : 0 < n) : (unitAxis n)[(unitAxis n).length - 1]'(by rw [unitAxis_length]; omega) = 1 := by
  rw [unitAxis_get, unitAxis_length]
  have : (n : ℝ) ≠ 0 := by exact_mod_cast hn.ne'
  simp [this]

/-- Steps as small as one wants. -/
theorem exists_unitAxis {δ : ℝ} (hδ : 0 < δ) : ∃ n : Nat, 0 < n ∧ (1 : ℝ) / n ≤ δ := by
  obtain ⟨n, hn⟩ := exists_nat_ge (1 / δ)
  have : (0 : ℝ) < n := lt_of_lt_of_le (by positivity) hn
  exact ⟨n, by exact_mod_cast this, by rwa [div_le_iff₀ this, mul_comm, ← div_le_iff₀ hδ]⟩

/-- The square root, whose slope is not bounded at 0, on `[0, 1]`. -/
example : ∃ n : Nat, ∀ x : ℝ, 0 ≤ x → x ≤ 1 →
    ∃ v, interp1d ⟨true⟩ .LINEAR (unitAxis n) ((unitAxis n).map Real.sqrt) x = .ok v ∧ |v - Real.sqrt x| ≤ 1 / 1000 := by
  obtain ⟨δ, hδ, h⟩ := C126_interp1d ⟨true⟩ (m := .LINEAR) (by decide) (a := 0) (b := 1) (f := Real.sqrt) Real.continuous_sqrt.continuousOn
    (ε := 1 / 1000) (by norm_num)
  obtain ⟨n, hn, hs⟩ := exists_unitAxis hδ
  exact ⟨n, h _ (by rw [unitAxis_length]; omega) (unitAxis_inc hn) (by rw [unitAxis_get]; simp) (unitAxis_last hn) (fun i hi => by rw [unitAxis_step]; exact hs)⟩

example : ∃ N : Nat, ∀ n, 2 ≤ n → N ≤ n → n < 2 ^ 32 →
    ∃ v, (Integrate1d.get.run (Integrate1d.after ((Source.function Real.sqrt).new 0 4 n) [.get, .setXmax 1])).1 = .ok v ∧
      |v - ∫ t in (0 : ℝ)..1, Real.sqrt t| ≤ 1 / 10 := by
  obtain ⟨N, h⟩ := C126_integrate1d (a := 0) (b := 1) one_pos (F := Real.sqrt) Real.continuous_sqrt.continuousOn (ε := 1 / 10) (by norm_num)
  exact ⟨N, fun n h2 hN h32 => h n h2 hN h32 0 4 _ (by simp) rfl rfl⟩

/-- `√(x y)` on the unit square, with the regular grid interpolator. -/
example : ∃ n s, Loaded 2 [unitAxis n, unitAxis n] (fun idx => Real.sqrt (((idx.getD 0 0 : Nat) : ℝ) / n * (((idx.getD 1 0 : Nat) : ℝ) / n))) s ∧
    ∀ x, Box [0, 0] [1, 1] x → ∃ v, RGI.interpolate s x true = .ok v ∧ |v - Real.sqrt (x.getD 0 0 * x.getD 1 0)| ≤ 1 / 1000 := by
  have hc : ContinuousOnBox (fun l => Real.sqrt (l.getD 0 0 * l.getD 1 0)) [0, 0] [1, 1] := by
    have hcont : Continuous (fun p : ℝ × ℝ => Real.sqrt (p.1 * p.2)) := by fun_prop
    rintro x ⟨h1, h2⟩ e he
    cases h1 with | @cons _ x1 _ _ p1 h1 => cases h1 with | @cons _ x2 _ _ p2 h1 => cases h1 with | nil =>
    obtain ⟨δ, hδ, h⟩ := Metric.continuous_iff.1 hcont (x1, x2) e he
    refine ⟨δ / 2, by positivity, ?_⟩
    rintro y ⟨k1, k2⟩ hxy
    cases hxy with | @cons _ y1 _ _ d1 hxy => cases hxy with | @cons _ y2 _ _ d2 hxy => cases hxy with | nil =>
    have := h (y1, y2) (by
      rw [Prod.dist_eq, max_lt_iff, Real.dist_eq, Real.dist_eq, abs_sub_comm, abs_sub_comm y2]
      constructor <;> simp only <;> linarith)
    rw [Real.dist_eq, abs_sub_comm] at this
    simpa using this.le
  obtain ⟨δ, hδ, h⟩ := C126_multilinear hc (ε := 1 / 1000) (by norm_num)
  obtain ⟨n, hn, hstep⟩ := exists_unitAxis hδ
  have hlen := unitAxis_length n
  have hne : unitAxis n ≠ [] := by
    intro h0
    rw [h0] at hlen
    simp at hlen
  have hh : (unitAxis n).head? = some 0 := by rw [List.head?_eq_getElem?, List.getElem?_eq_getElem (by omega), unitAxis_get]; simp
  have hl : (unitAxis n).getLast? = some 1 := by rw [List.getLast?_eq_getElem?, List.getElem?_eq_getElem (by omega), unitAxis_last hn]
  obtain ⟨s, hs⟩ := exists_loaded (grids := [unitAxis n, unitAxis n]) ⟨by simp, by simpa using hne, by simpa using unitAxis_inc hn⟩
    (fun idx => Real.sqrt (((idx.getD 0 0 : Nat) : ℝ) / n * (((idx.getD 1 0 : Nat) : ℝ) / n)))
  refine ⟨n, s, hs, fun x hx => h 2 _ _ s hs ⟨.cons hh (.cons hh .nil), .cons hl (.cons hl .nil)⟩ (by simp [hlen]; omega) (fun g hg i hi => ?_)
    (fun idx p hp => ?_) x hx true⟩
  · have : g = unitAxis n := by simpa using hg
    subst this
    rw [unitAxis_step]
    exact hstep
  · cases hp with | @cons _ _ i _ u _ e1 hp => cases hp with | @cons _ _ j _ w _ e2 hp => cases hp with | nil =>
    obtain ⟨hi, rfl⟩ := List.getElem?_eq_some_iff.1 e1
    obtain ⟨hj, rfl⟩ := List.getElem?_eq_some_iff.1 e2
    simp [unitAxis_get]

end MU
