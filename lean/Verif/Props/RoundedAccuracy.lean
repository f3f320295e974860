import Verif.Props.Accuracy
import Verif.Props.RoundedIntegral
import Verif.Props.RoundedInterp2d
import Verif.Props.RoundedGrid

/-!
# Functions integrated and tabulated in double arithmetic (C142, C143)
-/

set_option linter.unusedSectionVars false

namespace MU

open Spec Finset

variable {rnd : ℝ → ℝ}

/-! ## C142 -/

theorem panels_diff {n : Nat} {x y z : Nat → ℝ} {δ : ℝ} (hx : ∀ i, i < n → x i ≤ x (i + 1)) (h : ∀ i, i ≤ n → |y i - z i| ≤ δ) :
    |panels n x y - panels n x z| ≤ δ * (x n - x 0) := by
  induction n with
  | zero => simp [panels]
  | succ n ih =>
    have h1 := ih (fun i hi => hx i (by omega)) (fun i hi => h i (by omega))
    have h2 := h n (by omega)
    have h3 := h (n + 1) le_rfl
    have h4 := hx n (by omega)
    rw [panels_succ, panels_succ, show ∀ a b c d e : ℝ, a + c * d / 2 - (b + c * e / 2) = (a - b) + c * ((d - e) / 2) by intros; ring]
    have h5 : |(y n + y (n + 1) - (z n + z (n + 1))) / 2| ≤ δ := by
      rw [show (y n + y (n + 1) - (z n + z (n + 1))) / 2 = ((y n - z n) + (y (n + 1) - z (n + 1))) / 2 by ring, abs_div, abs_two]
      have := abs_add_le (y n - z n) (y (n + 1) - z (n + 1))
      linarith
    have h6 : |(x (n + 1) - x n) * ((y n + y (n + 1) - (z n + z (n + 1))) / 2)| ≤ (x (n + 1) - x n) * δ := by
      rw [abs_mul, abs_of_nonneg (by linarith)]
      exact mul_le_mul_of_nonneg_left h5 (by linarith)
    have h7 := abs_add_le (panels n x y - panels n x z) ((x (n + 1) - x n) * ((y n + y (n + 1) - (z n + z (n + 1))) / 2))
    linarith

theorem panels_le {n : Nat} {x y : Nat → ℝ} {Y : ℝ} (hx : ∀ i, i < n → x i ≤ x (i + 1)) (h : ∀ i, i ≤ n → |y i| ≤ Y) :
    panels n x (fun i => |y i|) ≤ Y * (x n - x 0) := by
  have := panels_diff (y := fun i => |y i|) (z := fun _ => 0) hx (fun i hi => by rw [sub_zero, abs_abs]; exact h i hi)
  have e : panels n x (fun _ => 0) = 0 := by simp [panels]
  rw [e, sub_zero] at this
  exact (le_abs_self _).trans this

open Integrate1d in
/-- C142: `Integrate1d` of a function in double arithmetic. `F` computes `f` up to `ε`; `η` bounds the displacement of the points, which can leave `[a, b]`
by as much. The result is the integral of `f` up to the error of the trapezoidal rule, the errors of `F`, the displacement of the points and the
roundings of the sum. -/
theorem C142_integral (hr : ToNearest rnd) {F f : ℝ → ℝ} {a b : ℝ} (hab : a < b) {N : Nat} (h2 : 2 ≤ N) (hN : N ≤ 2 ^ 25) {M L Y ε η : ℝ}
    (hη : (N + 2) / 2 ^ 53 * (|a| + (b - a)) ≤ η) (hf : DerivBound 2 f (Set.Icc a b) M)
    (hL : ∀ s ∈ Set.Icc (a - η) (b + η), ∀ t ∈ Set.Icc (a - η) (b + η), |f s - f t| ≤ L * |s - t|)
    (hF : ∀ t ∈ Set.Icc (a - η) (b + η), |F t - f t| ≤ ε) (hY : ∀ t ∈ Set.Icc (a - η) (b + η), |F t| ≤ Y) :
    ∃ v, ((getR rnd).run (ofFunction F a b N)).1 = .ok v ∧
      |v - ∫ t in a..b, f t| ≤ M * (b - a) ^ 3 / (12 * ((N : ℝ) - 1) ^ 2) + (b - a) * (ε + L * η + (N + 6) / 2 ^ 53 * Y) := by
  obtain ⟨p, v, hv, p0, hp, he⟩ := C108_error_partial hr F hab.le h2 (lt_of_le_of_lt hN (by norm_num))
  refine ⟨v, hv, ?_⟩
  have hN1 : (1 : ℝ) ≤ (N : ℝ) - 1 := by
    have : (2 : ℝ) ≤ N := by exact_mod_cast h2
    linarith
  set h := (b - a) / ((N : ℝ) - 1) with hh
  have hh0 : 0 < h := div_pos (by linarith) (by linarith)
  have hcast : ((N - 1 : Nat) : ℝ) = (N : ℝ) - 1 := by rw [Nat.cast_sub (by omega)]; simp
  have hend : a + ((N - 1 : Nat) : ℝ) * h = b := by
    rw [hcast, hh]
    field_simp
    ring
  have hih : ∀ i, i ≤ N - 1 → (i : ℝ) * h ≤ b - a := by
    intro i hi
    have : (i : ℝ) ≤ ((N - 1 : Nat) : ℝ) := by exact_mod_cast hi
    have := mul_le_mul_of_nonneg_right this hh0.le
    linarith
  have hη0 : 0 ≤ η := le_trans (by have := abs_nonneg a; have : 0 ≤ b - a := by linarith
                                   positivity) hη
  have hd : ∀ i, i ≤ N - 1 → |p i - (a + i * h)| ≤ η := by
    intro i hi
    have h1 := hp i
    have hg : gam (i + 2) ≤ (N + 2) / 2 ^ 53 := by
      refine (gam_le (k := i + 2) (by omega)).trans ?_
      unfold uround
      have : ((i + 2 : Nat) : ℝ) + 1 ≤ N + 2 := by
        have : ((i + 2 + 1 : Nat) : ℝ) ≤ ((N + 2 : Nat) : ℝ) := by exact_mod_cast (by omega)
        push_cast at this ⊢
        linarith
      rw [mul_one_div]
      gcongr
    rw [← gam_def] at h1
    have h3 : 0 ≤ (i : ℝ) * h := by positivity
    refine h1.trans ((mul_le_mul hg (add_le_add le_rfl (hih i hi)) (by positivity) (by positivity)).trans hη)
  have hx : ∀ i, i ≤ N - 1 → a + i * h ∈ Set.Icc (a - η) (b + η) := fun i hi => by
    have h3 : 0 ≤ (i : ℝ) * h := by positivity
    exact ⟨by linarith, by linarith [hih i hi]⟩
  have hpm : ∀ i, i ≤ N - 1 → p i ∈ Set.Icc (a - η) (b + η) := fun i hi => by
    have h3 : 0 ≤ (i : ℝ) * h := by positivity
    have h4 := abs_le.1 (hd i hi)
    exact ⟨by linarith, by linarith [hih i hi]⟩
  have hmono : ∀ i, i < N - 1 → (fun i : Nat => a + i * h) i ≤ (fun i : Nat => a + i * h) (i + 1) := fun i _ => by
    simp only
    push_cast
    linarith
  have hL0 : 0 ≤ L := by
    have h1 := hL a ⟨by linarith, by linarith⟩ b ⟨by linarith, by linarith⟩
    have h2 := (abs_nonneg _).trans h1
    rw [abs_sub_comm, abs_of_pos (by linarith : 0 < b - a)] at h2
    exact le_of_mul_le_mul_right (by linarith) (by linarith : 0 < b - a)
  have d1 : |panels (N - 1) (fun i => a + i * h) (fun i => F (p i)) - panels (N - 1) (fun i => a + i * h) (fun i => f (a + i * h))| ≤ (ε + L * η) * (b - a) := by
    have := panels_diff (δ := ε + L * η) (y := fun i => F (p i)) (z := fun i => f (a + i * h)) hmono (fun i hi => by
      have h1 := hF _ (hpm i hi)
      have h3 := hL _ (hpm i hi) _ (hx i hi)
      have h4 := mul_le_mul_of_nonneg_left (hd i hi) hL0
      have := abs_sub_le (F (p i)) (f (p i)) (f (a + i * h))
      linarith)
    rwa [hend, Nat.cast_zero, zero_mul, add_zero] at this
  have d2 : panels (N - 1) (fun i => a + i * h) (fun i => |F (p i)|) ≤ Y * (b - a) := by
    have := panels_le (y := fun i => F (p i)) (Y := Y) hmono (fun i hi => hY _ (hpm i hi))
    rwa [hend, Nat.cast_zero, zero_mul, add_zero] at this
  have hY0 : 0 ≤ Y := (abs_nonneg _).trans (hY a ⟨by linarith, by linarith⟩)
  have d3 : |v - panels (N - 1) (fun i => a + i * h) (fun i => F (p i))| ≤ (N + 6) / 2 ^ 53 * (Y * (b - a)) := by
    rw [← gam_def] at he
    refine he.trans (mul_le_mul ?_ d2 ?_ (by positivity))
    · refine (gam_le (k := N + 5) (by omega)).trans (le_of_eq ?_)
      unfold uround
      push_cast
      ring
    · refine sum_nonneg fun i _ => ?_
      have : (0 : ℝ) ≤ (a + ((i + 1 : Nat) : ℝ) * h) - (a + i * h) := by
        push_cast
        linarith
      positivity
  have d4 := panels_error (f := f) (M := M) (fun i : Nat => a + i * h) (N - 1) (fun i _ => by push_cast; linarith)
    (by simp only [Nat.cast_zero, zero_mul, add_zero]; rw [hend]; exact hf)
  simp only [Nat.cast_zero, zero_mul, add_zero] at d4
  rw [hend] at d4
  have e4 : ∑ i ∈ range (N - 1), M * (a + ((i + 1 : Nat) : ℝ) * h - (a + i * h)) ^ 3 / 12 = M * (b - a) ^ 3 / (12 * ((N : ℝ) - 1) ^ 2) := by
    have : ∀ i ∈ range (N - 1), M * (a + ((i + 1 : Nat) : ℝ) * h - (a + i * h)) ^ 3 / 12 = M * h ^ 3 / 12 := fun i _ => by
      push_cast
      ring
    rw [sum_congr rfl this, sum_const, card_range, nsmul_eq_mul, hcast, hh]
    have : (N : ℝ) - 1 ≠ 0 := by linarith
    field_simp
  rw [e4] at d4
  have t1 := abs_sub_le v (panels (N - 1) (fun i => a + i * h) (fun i => F (p i))) (∫ t in a..b, f t)
  have t2 := abs_sub_le (panels (N - 1) (fun i => a + i * h) (fun i => F (p i))) (panels (N - 1) (fun i => a + i * h) (fun i => f (a + i * h))) (∫ t in a..b, f t)
  linarith

theorem derivBound_sin {a b : ℝ} : DerivBound 2 Real.sin (Set.Icc a b) 1 := by
  refine ⟨fun j => if j = 0 then Real.sin else if j = 1 then Real.cos else fun t => -Real.sin t, fun t _ => by simp, fun j hj t _ => ?_, fun t _ => ?_⟩
  · match j, hj with
    | 0, _ => simpa using (Real.hasDerivAt_sin t).hasDerivWithinAt
    | 1, _ => simpa using (Real.hasDerivAt_cos t).hasDerivWithinAt
  · simpa using Real.abs_sin_le_one t

/-- C142: the hypotheses are met: the rounded sine over `[0, 1]` with 1001 points is integrated within `10⁻⁷`. -/
example : ∃ rnd, ToNearest rnd ∧ ∃ v, ((Integrate1d.getR rnd).run (Integrate1d.ofFunction (fun t => rnd (Real.sin t)) 0 1 1001)).1 = .ok v ∧
    |v - ∫ t in (0 : ℝ)..1, Real.sin t| ≤ 1 / 10 ^ 7 := by
  have hr := roundNearest_toNearest
  refine ⟨_, hr, ?_⟩
  have hs : ∀ t, |roundNearest (Real.sin t) - Real.sin t| ≤ 1 / 2 ^ 53 := by
    intro t
    have := toNearest_err hr (Real.sin t)
    rw [abs_sub_comm] at this
    refine this.trans ?_
    gcongr
    exact Real.abs_sin_le_one t
  obtain ⟨v, hv, he⟩ := C142_integral hr (F := fun t => roundNearest (Real.sin t)) (f := Real.sin) (a := 0) (b := 1) (N := 1001) (η := 1003 / 2 ^ 53)
    (M := 1) (L := 1) (ε := 1 / 2 ^ 53) (Y := 2) (by norm_num) (by norm_num) (by norm_num) (by norm_num) derivBound_sin
    (fun s _ t _ => by
      rw [one_mul]
      exact Real.abs_sin_sub_sin_le s t)
    (fun t _ => hs t) (fun t _ => by
      have h1 := hs t
      have h2 := Real.abs_sin_le_one t
      have := abs_sub_abs_le_abs_sub (roundNearest (Real.sin t)) (Real.sin t)
      norm_num at h1 ⊢
      linarith)
  exact ⟨v, hv, he.trans (by norm_num)⟩

/-! ## C143 -/

theorem exists_cell_strict {xs : List ℝ} (hx : xs.Pairwise (· < ·)) (h2 : 2 ≤ xs.length) {x : ℝ} (h0 : xs[0] ≤ x) (h1 : x ≤ xs[xs.length - 1]) :
    ∃ i, ∃ hi : i + 1 < xs.length, (xs[i] < x ∨ i = 0 ∧ xs[i] = x) ∧ x ≤ xs[i + 1] := by
  obtain ⟨i, hi, ha, hb⟩ := Interp1d.exists_cell hx h2 h0 h1
  rcases ha.lt_or_eq with h | h
  · exact ⟨i, hi, Or.inl h, hb⟩
  · rcases Nat.eq_zero_or_pos i with h5 | h5
    · subst h5
      exact ⟨0, hi, Or.inr ⟨rfl, h⟩, hb⟩
    · obtain ⟨j, rfl⟩ : ∃ j, i = j + 1 := ⟨i - 1, by omega⟩
      refine ⟨j, by omega, Or.inl ?_, h.symm.le⟩
      rw [← h]
      exact List.pairwise_iff_getElem.1 hx j (j + 1) (by omega) (by omega) (by omega)

theorem line_noise {f : ℝ → ℝ} {a b x M u v ε : ℝ} (hab : a < b) (hf : DerivBound 2 f (Set.Icc a b) M) (h0 : a ≤ x) (h1 : x ≤ b)
    (hu : |u - f a| ≤ ε) (hv : |v - f b| ≤ ε) : |line a u b v x - f x| ≤ M * (b - a) ^ 2 / 8 + ε := by
  have e1 := line_error_le hab hf h0 h1
  have e2 := abs_line_le hab h0 h1 hu hv
  rw [← line_sub] at e2
  have := abs_sub_le (line a u b v x) (line a (f a) b (f b) x) (f x)
  linarith

/-- C143, one variable: a table of a function in double. -/
theorem C143_interp1d (hr : ToNearest rnd) (B : Build) {m : InterpMethod} (hm : m ≠ .BSPLINE) {xs ys : List ℝ} (ht : Table xs ys) {f : ℝ → ℝ}
    {ε M X Y h δ x : ℝ} (hdata : ∀ i (hi : i < xs.length), |ys[i]'(ht.sizes ▸ hi) - f xs[i]| ≤ ε)
    (hX : ∀ t ∈ xs, |t| ≤ X) (hY : ∀ t ∈ ys, |t| ≤ Y) (hδ : 0 < δ)
    (hs : ∀ i (hi : i + 1 < xs.length), δ ≤ xs[i + 1] - xs[i] ∧ xs[i + 1] - xs[i] ≤ h)
    (h0 : xs[0]'(by have := ht.two; omega) ≤ x) (h1 : x ≤ xs[xs.length - 1]'(by have := ht.two; omega))
    (hf : DerivBound 2 f (Set.Icc (xs[0]'(by have := ht.two; omega)) (xs[xs.length - 1]'(by have := ht.two; omega))) M) :
    ∃ v, interp1dR rnd B m xs ys x = .ok v ∧ |v - f x| ≤ M * h ^ 2 / 8 + ε + 28 / 2 ^ 53 * (X * Y / δ) := by
  obtain ⟨i, hi, ha, hb⟩ := exists_cell_strict ht.increasing ht.two h0 h1
  have hi' : i + 1 < ys.length := ht.sizes ▸ hi
  obtain ⟨v, hv, he⟩ := C107_error_partial hr B hm ht hi hi' ha hb
  refine ⟨v, hv, ?_⟩
  have ha' : xs[i] ≤ x := by rcases ha with h | h; exacts [h.le, h.2.le]
  have px : xs[i] < xs[i + 1] := List.pairwise_iff_getElem.1 ht.increasing i (i + 1) (by omega) hi (by omega)
  have sx := Set.Icc_subset_Icc (pairwise_le_first ht.increasing (i := i) (by omega)) (pairwise_le_last ht.increasing hi)
  have e1 := line_noise px (hf.mono sx) ha' hb (hdata i (by omega)) (hdata (i + 1) hi)
  have hM : 0 ≤ M := hf.nonneg ⟨h0, h1⟩
  obtain ⟨s1, s2⟩ := hs i hi
  have bx : M * (xs[i + 1] - xs[i]) ^ 2 / 8 ≤ M * h ^ 2 / 8 := by gcongr
  have X0 := hX _ (List.getElem_mem (l := xs) (n := i) (by omega))
  have X1 := hX _ (List.getElem_mem (l := xs) (n := i + 1) hi)
  have Y0 := hY _ (List.getElem_mem (l := ys) (n := i) (by omega))
  have Y1 := hY _ (List.getElem_mem (l := ys) (n := i + 1) hi')
  have Xx : |x| ≤ X := abs_le.2 ⟨by linarith [(abs_le.1 X0).1], by linarith [(abs_le.1 X1).2]⟩
  have hXX : 0 ≤ X := (abs_nonneg _).trans Xx
  have hYY : 0 ≤ Y := (abs_nonneg _).trans Y0
  have hn : (|ys[i]| + |ys[i + 1]|) * |x| + |ys[i] * xs[i + 1]| + |xs[i] * ys[i + 1]| ≤ 4 * (X * Y) := by
    rw [abs_mul, abs_mul]
    have a1 : (|ys[i]| + |ys[i + 1]|) * |x| ≤ (Y + Y) * X := by gcongr
    have a2 : |ys[i]| * |xs[i + 1]| ≤ Y * X := by gcongr
    have a3 : |xs[i]| * |ys[i + 1]| ≤ X * Y := by gcongr
    linarith
  have hq : ((|ys[i]| + |ys[i + 1]|) * |x| + |ys[i] * xs[i + 1]| + |xs[i] * ys[i + 1]|) / (xs[i + 1] - xs[i]) ≤ 4 * (X * Y) / δ :=
    div_le_div₀ (by positivity) hn hδ s1
  have hq' : 7 / 2 ^ 53 * (((|ys[i]| + |ys[i + 1]|) * |x| + |ys[i] * xs[i + 1]| + |xs[i] * ys[i + 1]|) / (xs[i + 1] - xs[i]))
      ≤ 28 / 2 ^ 53 * (X * Y / δ) := by
    refine (mul_le_mul_of_nonneg_left hq (by norm_num)).trans (le_of_eq ?_)
    ring
  have := abs_sub_le v (line xs[i] ys[i] xs[i + 1] ys[i + 1] x) (f x)
  linarith

/-- C143, two variables. -/
theorem C143_interp2d (hr : ToNearest rnd) (B : Build) {xs ys data : List ℝ} (g : Grid xs ys data) {f : ℝ → ℝ → ℝ} {ε : ℝ}
    (hdata : ∀ i j (hi : i < xs.length) (hj : j < ys.length), |g.at i j hi hj - f xs[i] ys[j]| ≤ ε)
    {Mx My hx hy δx δy X Y D x y : ℝ} (hX : ∀ t ∈ xs, |t| ≤ X) (hY : ∀ t ∈ ys, |t| ≤ Y) (hD : ∀ t ∈ data, |t| ≤ D) (hδx : 0 < δx) (hδy : 0 < δy)
    (hx0 : xs[0]'(by have := g.twox; omega) ≤ x) (hx1 : x ≤ xs[xs.length - 1]'(by have := g.twox; omega))
    (hy0 : ys[0]'(by have := g.twoy; omega) ≤ y) (hy1 : y ≤ ys[ys.length - 1]'(by have := g.twoy; omega))
    (hfx : ∀ v, ys[0]'(by have := g.twoy; omega) ≤ v → v ≤ ys[ys.length - 1]'(by have := g.twoy; omega) →
      DerivBound 2 (fun u => f u v) (Set.Icc (xs[0]'(by have := g.twox; omega)) (xs[xs.length - 1]'(by have := g.twox; omega))) Mx)
    (hfy : DerivBound 2 (fun v => f x v) (Set.Icc (ys[0]'(by have := g.twoy; omega)) (ys[ys.length - 1]'(by have := g.twoy; omega))) My)
    (hsx : ∀ i (hi : i + 1 < xs.length), δx ≤ xs[i + 1] - xs[i] ∧ xs[i + 1] - xs[i] ≤ hx)
    (hsy : ∀ j (hj : j + 1 < ys.length), δy ≤ ys[j + 1] - ys[j] ∧ ys[j + 1] - ys[j] ≤ hy) :
    ∃ v, interp2dR rnd B .LINEAR xs ys data x y = .ok v ∧
      |v - f x y| ≤ Mx * hx ^ 2 / 8 + My * hy ^ 2 / 8 + ε + 272 / 2 ^ 53 * (D * X * Y / (δx * δy)) := by
  obtain ⟨i, hi, ha, hb⟩ := exists_cell_strict g.incx g.twox hx0 hx1
  obtain ⟨j, hj, hc, hd⟩ := exists_cell_strict g.incy g.twoy hy0 hy1
  have mD : ∀ i j (hi : i < xs.length) (hj : j < ys.length), |g.at i j hi hj| ≤ D := fun i j hi hj => hD _ (List.getElem_mem _)
  have X1 := hX _ (List.getElem_mem (l := xs) (n := i) (by omega))
  have Y1 := hY _ (List.getElem_mem (l := ys) (n := j) (by omega))
  obtain ⟨v, hv, he⟩ := C131_error_partial hr B g hi hj ha hb hc hd X1 (hX _ (List.getElem_mem _)) Y1 (hY _ (List.getElem_mem _))
    (mD i j (by omega) (by omega)) (mD i (j + 1) (by omega) hj) (mD (i + 1) j hi (by omega)) (mD (i + 1) (j + 1) hi hj)
  refine ⟨v, hv, ?_⟩
  have ha' : xs[i] ≤ x := by rcases ha with h | h; exacts [h.le, h.2.le]
  have hc' : ys[j] ≤ y := by rcases hc with h | h; exacts [h.le, h.2.le]
  have px : xs[i] < xs[i + 1] := List.pairwise_iff_getElem.1 g.incx i (i + 1) (by omega) hi (by omega)
  have py : ys[j] < ys[j + 1] := List.pairwise_iff_getElem.1 g.incy j (j + 1) (by omega) hj (by omega)
  have sx := Set.Icc_subset_Icc (pairwise_le_first g.incx (i := i) (by omega)) (pairwise_le_last g.incx hi)
  have sy := Set.Icc_subset_Icc (pairwise_le_first g.incy (i := j) (by omega)) (pairwise_le_last g.incy hj)
  have hMx : 0 ≤ Mx := (hfx y hy0 hy1).nonneg ⟨hx0, hx1⟩
  have hMy : 0 ≤ My := hfy.nonneg ⟨hy0, hy1⟩
  have e1 := line_noise px ((hfx ys[j] (pairwise_le_first g.incy (by omega)) (pairwise_le_last g.incy (by omega))).mono sx) ha' hb
    (hdata i j (by omega) (by omega)) (hdata (i + 1) j hi (by omega))
  have e2 := line_noise px ((hfx ys[j + 1] (pairwise_le_first g.incy (by omega)) (pairwise_le_last g.incy (by omega))).mono sx) ha' hb
    (hdata i (j + 1) (by omega) hj) (hdata (i + 1) (j + 1) hi hj)
  have e3 := line_noise py (hfy.mono sy) hc' hd e1 e2
  obtain ⟨s1, s2⟩ := hsx i hi
  obtain ⟨s3, s4⟩ := hsy j hj
  have bx : Mx * (xs[i + 1] - xs[i]) ^ 2 / 8 ≤ Mx * hx ^ 2 / 8 := by gcongr
  have byy : My * (ys[j + 1] - ys[j]) ^ 2 / 8 ≤ My * hy ^ 2 / 8 := by gcongr
  have nX : 0 ≤ X := (abs_nonneg _).trans X1
  have nY : 0 ≤ Y := (abs_nonneg _).trans Y1
  have nD : 0 ≤ D := (abs_nonneg _).trans (mD i j (by omega) (by omega))
  have hq : 17 / 2 ^ 53 * (16 * D * X * Y / ((xs[i + 1] - xs[i]) * (ys[j + 1] - ys[j]))) ≤ 272 / 2 ^ 53 * (D * X * Y / (δx * δy)) := by
    have : 16 * D * X * Y / ((xs[i + 1] - xs[i]) * (ys[j + 1] - ys[j])) ≤ 16 * D * X * Y / (δx * δy) := by gcongr
    refine (mul_le_mul_of_nonneg_left this (by norm_num)).trans (le_of_eq ?_)
    ring
  unfold bilinear at he
  have := abs_sub_le v (line ys[j] (line xs[i] (g.at i j (by omega) (by omega)) xs[i + 1] (g.at (i + 1) j hi (by omega)) x) ys[j + 1]
    (line xs[i] (g.at i (j + 1) (by omega) hj) xs[i + 1] (g.at (i + 1) (j + 1) hi hj) x) y) (f x y)
  linarith

theorem tensor_noise {grids : List (List ℝ)} (hg : ∀ g ∈ grids, g.Pairwise (· < ·)) {cell : List (Nat × ℝ × ℝ)} {x : List ℝ}
    (h : Brackets grids cell x) {ε : ℝ} : ∀ {F : List Nat → ℝ} {f : List ℝ → ℝ} {Ms : List ℝ}, AxisBounds grids Ms f →
      (∀ idx p, IsNode grids idx p → |F idx - f p| ≤ ε) → |tensor cell F x - f x| ≤ cellError cell Ms + ε := by
  induction h with
  | nil =>
    intro F f Ms hM hF
    simp only [tensor, cellError, zero_add]
    exact hF [] [] .nil
  | @cons g gs c a b cell x xs h1 h2 h3 h4 hrest ih =>
    intro F f Ms hM hF
    cases Ms with
    | nil => exact absurd hM (by simp [AxisBounds])
    | cons M Ms =>
      obtain ⟨hd, hr⟩ := hM
      have hgg := hg g List.mem_cons_self
      have hgs := fun g' hg' => hg g' (List.mem_cons_of_mem g hg')
      have hne : g ≠ [] := by rintro rfl; simp at h1
      have hA := List.head?_eq_some_head hne
      have hB := List.getLast?_eq_some_getLast hne
      obtain ⟨a0, a1⟩ := head_le_of_getElem? hgg h1 hA hB
      obtain ⟨b0, b1⟩ := head_le_of_getElem? hgg h2 hA hB
      have hab : a < b := by
        obtain ⟨hi, rfl⟩ := List.getElem?_eq_some_iff.1 h1
        obtain ⟨hj, rfl⟩ := List.getElem?_eq_some_iff.1 h2
        exact List.pairwise_iff_getElem.1 hgg c (c + 1) hi hj (by omega)
      have e1 := ih hgs (hr _ _ hA hB a a0 a1) (F := fun is => F (c :: is)) (fun idx p hp => hF _ _ (.cons h1 hp))
      have e2 := ih hgs (hr _ _ hA hB b b0 b1) (F := fun is => F ((c + 1) :: is)) (fun idx p hp => hF _ _ (.cons h2 hp))
      have e3 := line_noise hab ((hd _ _ hA hB xs (Brackets.inBox hgs hrest)).mono (Set.Icc_subset_Icc a0 b1)) h3 h4 e1 e2
      simp only [tensor, cellError]
      linarith

/-- C143, any number of variables. -/
theorem C143_grid (hr : ToNearest rnd) {dim : Nat} {grids : List (List ℝ)} {F : List Nat → ℝ} {s : RGI ℝ} (h : Loaded dim grids F s) {f : List ℝ → ℝ}
    {ε D : ℝ} (hF : ∀ idx p, IsNode grids idx p → |F idx - f p| ≤ ε) (hD : ∀ idx, Inside idx (grids.map List.length) → |F idx| ≤ D)
    {Ms : List ℝ} (hM : AxisBounds grids Ms f) {cell : List (Nat × ℝ × ℝ)} {x : List ℝ} (hx : Brackets grids cell x) (bound_check : Bool) :
    ∃ v, RGI.interpolateR rnd s x bound_check = .ok v ∧ |v - f x| ≤ cellError cell Ms + ε + D * ((1 + 16 / 2 ^ 53) ^ dim - 1) := by
  obtain ⟨hax, hlen, -⟩ := RGI.Loaded.fields h
  have hinc := hax.increasing
  have hl : x.length = dim := by rw [RGI.Brackets.len hx, hlen]
  obtain ⟨v, w, h1, h2, h3⟩ := C119_error hr h hD hl
  rw [C18_tensor_product h hx] at h2
  injection h2 with h2
  have h4 := tensor_noise hinc hx hM hF
  rw [h2] at h4
  have h5 := abs_sub_le v w (f x)
  refine ⟨v, ?_, by linarith⟩
  cases bound_check with
  | false => exact h1
  | true =>
    obtain ⟨y, hy1, hy2⟩ := (C119_bound_check hr h hl).2 (Brackets.inBox hinc hx)
    rw [hy1, ← hy2, h1]

theorem derivBound_sq {c : ℝ} {S : Set ℝ} : DerivBound 2 (fun t : ℝ => t ^ 2 + c) S 2 := by
  refine ⟨fun j t => if j = 0 then t ^ 2 + c else if j = 1 then 2 * t else 2, fun t _ => by simp, fun j hj t _ => ?_, fun t _ => by norm_num⟩
  match j, hj with
  | 0, _ => simpa using (((hasDerivAt_id t).pow 2).add_const c).hasDerivWithinAt
  | 1, _ => simpa using ((hasDerivAt_id t).const_mul 2).hasDerivWithinAt

theorem derivBound_affine {c : ℝ} {S : Set ℝ} : DerivBound 2 (fun t : ℝ => c + t) S 0 := by
  refine ⟨fun j t => if j = 0 then c + t else if j = 1 then 1 else 0, fun t _ => by simp, fun j hj t _ => ?_, fun t _ => by norm_num⟩
  match j, hj with
  | 0, _ => simpa using ((hasDerivAt_id t).const_add c).hasDerivWithinAt
  | 1, _ => simpa using (hasDerivAt_const t (1 : ℝ)).hasDerivWithinAt

/-- C143: the hypotheses are met by a table of squares that are not all exact. -/
example : ∃ rnd, ToNearest rnd ∧ ∃ v, interp1dR rnd ⟨true⟩ .LINEAR [0, 1, 3] [0, 1 + 1 / 2 ^ 20, 9] 2 = .ok v ∧ |v - (2 ^ 2 + 0)| ≤ 1 + 1 / 2 ^ 19 := by
  refine ⟨_, roundNearest_toNearest, ?_⟩
  have ht : Table ([0, 1, 3] : List ℝ) ([0, 1 + 1 / 2 ^ 20, 9] : List ℝ) := ⟨by simp, by norm_num, by simp⟩
  obtain ⟨v, hv, he⟩ := C143_interp1d roundNearest_toNearest ⟨true⟩ (m := .LINEAR) (by simp) ht (f := fun t => t ^ 2 + 0) (ε := 1 / 2 ^ 20) (M := 2)
    (X := 3) (Y := 9) (h := 2) (δ := 1) (x := 2)
    (fun i hi => by
      match i, hi with
      | 0, _ => norm_num
      | 1, _ => norm_num
      | 2, _ => norm_num)
    (by norm_num) (by norm_num [abs_le]) one_pos
    (fun i hi => by
      match i, hi with
      | 0, _ => norm_num
      | 1, _ => norm_num)
    (by norm_num) (by norm_num) derivBound_sq
  exact ⟨v, hv, he.trans (by norm_num)⟩

/-- C143: two variables, `x² + y`. -/
example : ∃ rnd, ToNearest rnd ∧ ∃ v, interp2dR rnd ⟨true⟩ .LINEAR [0, 1, 3] [10, 20] [10, 20, 11, 21, 19, 29] 2 13 = .ok v ∧
    |v - (2 ^ 2 + 13)| ≤ 1 + 1 / 2 ^ 19 := by
  refine ⟨_, roundNearest_toNearest, ?_⟩
  have g : Grid ([0, 1, 3] : List ℝ) ([10, 20] : List ℝ) ([10, 20, 11, 21, 19, 29] : List ℝ) := ⟨by simp, by simp, by norm_num, by norm_num, by simp⟩
  obtain ⟨v, hv, he⟩ := C143_interp2d roundNearest_toNearest ⟨true⟩ g (f := fun x y => x ^ 2 + y) (ε := 0) (Mx := 2) (My := 0) (hx := 2) (hy := 10)
    (δx := 1) (δy := 10) (X := 3) (Y := 20) (D := 29) (x := 2) (y := 13)
    (fun i j hi hj => by
      match i, hi, j, hj with
      | 0, _, 0, _ => norm_num [Grid.at]
      | 0, _, 1, _ => norm_num [Grid.at]
      | 1, _, 0, _ => norm_num [Grid.at]
      | 1, _, 1, _ => norm_num [Grid.at]
      | 2, _, 0, _ => norm_num [Grid.at]
      | 2, _, 1, _ => norm_num [Grid.at])
    (by norm_num) (by norm_num) (by norm_num) one_pos (by norm_num) (by norm_num) (by norm_num) (by norm_num) (by norm_num)
    (fun v _ _ => derivBound_sq) derivBound_affine
    (fun i hi => by
      match i, hi with
      | 0, _ => norm_num
      | 1, _ => norm_num)
    (fun i hi => by
      match i, hi with
      | 0, _ => norm_num)
  exact ⟨v, hv, he.trans (by norm_num)⟩

/-- C143: the same function on the two-dimensional grid of the regular grid interpolator. -/
example : ∃ rnd, ToNearest rnd ∧ ∃ s v, RGI.interpolateR rnd s [2, 13] true = .ok v ∧ |v - (2 ^ 2 + 13)| ≤ 1 + 1 / 2 ^ 19 := by
  obtain ⟨s, hs⟩ := realGridLoaded
  refine ⟨_, roundNearest_toNearest, s, ?_⟩
  obtain ⟨v, hv, he⟩ := C143_grid roundNearest_toNearest hs (f := fun p => p.getD 0 0 ^ 2 + p.getD 1 0) (ε := 0) (D := 29)
    (fun idx p hp => by
      cases hp with
      | @cons _ _ i _ a _ ha hp =>
        cases hp with
        | @cons _ _ j _ b _ hb hp =>
          cases hp
          match i, j, ha, hb with
          | 0, 0, ha, hb => simp at ha hb; subst ha hb; norm_num [realGridF]
          | 0, 1, ha, hb => simp at ha hb; subst ha hb; norm_num [realGridF]
          | 1, 0, ha, hb => simp at ha hb; subst ha hb; norm_num [realGridF]
          | 1, 1, ha, hb => simp at ha hb; subst ha hb; norm_num [realGridF]
          | 2, 0, ha, hb => simp at ha hb; subst ha hb; norm_num [realGridF]
          | 2, 1, ha, hb => simp at ha hb; subst ha hb; norm_num [realGridF]
          | n + 3, _, ha, _ => simp at ha
          | _, n + 2, _, hb => simp at hb)
    (fun idx h => (realGridF_data h).2) (Ms := [2, 0])
    ⟨fun a b _ _ xs _ => by simpa using derivBound_sq, fun a b _ _ t _ _ => ⟨fun a b _ _ xs _ => by simpa using derivBound_affine, fun a b _ _ t _ _ => trivial⟩⟩
    (cell := [(1, 1, 3), (0, 10, 20)]) (x := [2, 13])
    (.cons rfl rfl (by norm_num) (by norm_num) (.cons rfl rfl (by norm_num) (by norm_num) .nil)) true
  refine ⟨v, hv, ?_⟩
  simp only [List.getD_cons_zero, List.getD_cons_succ, cellError] at he
  exact he.trans (by norm_num)

end MU
