import Verif.Props.RoundedChebyshevCompute

set_option linter.unusedSectionVars false

/-!
# Chebyshev series of two and three variables built and evaluated in double arithmetic

C135.
-/

namespace MU.Spec

/-- On the domain `X × Y` the program `F` computes within `φ` the function `G`, which is at most `M` in magnitude and of which the rates of change in the
variables mapped to `[-1, 1]` are at most `Lx` and `Ly`. -/
structure Computes2 (F G : ℝ → ℝ → ℝ) (X Y : Domain ℝ) (φ Lx Ly M : ℝ) : Prop where
  rate : 0 ≤ Lx ∧ 0 ≤ Ly
  close : ∀ x y, X.Mem x → Y.Mem y → |F x y - G x y| ≤ φ
  lipschitz : ∀ x x' y y', X.Mem x → X.Mem x' → Y.Mem y → Y.Mem y' →
    |G x y - G x' y'| ≤ Lx * |X.unit x - X.unit x'| + Ly * |Y.unit y - Y.unit y'|
  bound : ∀ x y, X.Mem x → Y.Mem y → |G x y| ≤ M

/-- The same for three variables. -/
structure Computes3 (F G : ℝ → ℝ → ℝ → ℝ) (X Y Z : Domain ℝ) (φ Lx Ly Lz M : ℝ) : Prop where
  rate : 0 ≤ Lx ∧ 0 ≤ Ly ∧ 0 ≤ Lz
  close : ∀ x y z, X.Mem x → Y.Mem y → Z.Mem z → |F x y z - G x y z| ≤ φ
  lipschitz : ∀ x x' y y' z z', X.Mem x → X.Mem x' → Y.Mem y → Y.Mem y' → Z.Mem z → Z.Mem z' →
    |G x y z - G x' y' z'| ≤ Lx * |X.unit x - X.unit x'| + Ly * |Y.unit y - Y.unit y'| + Lz * |Z.unit z - Z.unit z'|
  bound : ∀ x y z, X.Mem x → Y.Mem y → Z.Mem z → |G x y z| ≤ M

/-- The error of a coefficient computed in double, two variables. `lam` is the sum of the products of the condition of each variable and of the rate of
change in this variable. -/
noncomputable def coeffErr2 (n m : Nat) (lam ε φ M : ℝ) : ℝ :=
  16 * (φ + 16 * lam / 2 ^ 53) + 8 * M * (2 * ε + 21 * (n ^ 2 + m ^ 2) / 2 ^ 53) + 16 * (((n + 1) * (m + 1) + 6) / 2 ^ 53) * (M + φ)

/-- The same for three variables. -/
noncomputable def coeffErr3 (n m l : Nat) (lam ε φ M : ℝ) : ℝ :=
  64 * (φ + 16 * lam / 2 ^ 53) + 32 * M * (3 * ε + 21 * (n ^ 2 + m ^ 2 + l ^ 2) / 2 ^ 53) +
    64 * (((n + 1) * (m + 1) * (l + 1) + 7) / 2 ^ 53) * (M + φ)

/-- The error of the value computed in double, two variables. -/
noncomputable def seriesErr2 (n m : Nat) (κx κy lam ε φ M : ℝ) : ℝ :=
  let e := (1 + chebErr n κx) * (1 + chebErr m κy) - 1
  (n + 1) * (m + 1) * ((1 + e) * coeffErr2 n m lam ε φ M + 4 * e * M)

/-- The same for three variables. -/
noncomputable def seriesErr3 (n m l : Nat) (κx κy κz lam ε φ M : ℝ) : ℝ :=
  let e := (1 + chebErr n κx) * (1 + chebErr m κy) * (1 + chebErr l κz) - 1
  (n + 1) * (m + 1) * (l + 1) * ((1 + e) * coeffErr3 n m l lam ε φ M + 8 * e * M)

end MU.Spec

namespace MU
open Spec Finset Polynomial

variable {rnd cosR : ℝ → ℝ} {TR : Nat → ℝ → ℝ}

/-! ## Accumulation in nested loops -/

/-- The successive values of a loop that replaces the value by `f 0`, `f 1`, ... of it. -/
noncomputable def accN (f : Nat → ℝ → ℝ) (a : ℝ) : Nat → ℝ
  | 0 => a
  | k + 1 => f k (accN f a k)

theorem accum_accN {σ ι : Type} [DecidableEq ι] (S : Store σ ι ℝ) {p : ι} {n : Nat} {body : Nat → σ → Res σ} (f : Nat → ℝ → ℝ)
    (h : ∀ i, i < n → ∀ e, body i (S.rep e) = .ok (S.rep (Function.update e p (f i (e p))))) (e : ι → ℝ) :
    forRange 0 n body (S.rep e) = .ok (S.rep (Function.update e p (accN f (e p) n))) := by
  have := forRange_ok (lo := 0) (hi := n) (Nat.zero_le n) (f := body) (fun k => S.rep (Function.update e p (accN f (e p) k))) (by
    intro i _ h2
    rw [h i h2, Function.update_idem, Function.update_self, accN])
  simpa [accN] using this

/-- `f` adds to its argument `p`, with at most `d` roundings of terms of total size `Q`. -/
def Adds (k₀ d : ℕ) (f : ℝ → ℝ) (Q p : ℝ) : Prop := ∀ k, k₀ ≤ k → ∀ Q₀ P₀ a, Near k Q₀ P₀ a → Near (k + d) (Q₀ + Q) (P₀ + p) (f a)

theorem adds_one (hr : ToNearest rnd) {k₀ : ℕ} {Q p g : ℝ} (h : Near k₀ Q p g) : Adds k₀ 1 (fun a => rnd (a + g)) Q p :=
  fun _ hk _ _ _ ha => (ha.add (h.upto hk)).round hr

theorem adds_loop {k₀ d : ℕ} {f : Nat → ℝ → ℝ} {Q p : Nat → ℝ} (h : ∀ i, Adds k₀ d (f i) (Q i) (p i)) (N : Nat) :
    Adds k₀ (N * d) (fun a => accN f a N) (∑ i ∈ range N, Q i) (∑ i ∈ range N, p i) := by
  intro k hk Q₀ P₀ a ha
  induction N with
  | zero => simpa [accN] using ha
  | succ N ih =>
    have := h N (k + N * d) (by omega) _ _ _ ih
    rw [sum_range_succ, sum_range_succ, ← add_assoc, ← add_assoc, show k + (N + 1) * d = k + N * d + d by ring]
    exact this

theorem Adds.start {k₀ d : ℕ} {f : ℝ → ℝ} {Q p : ℝ} (h : Adds k₀ d f Q p) : Near (k₀ + d) Q p (f 0) := by
  have := h k₀ le_rfl 0 0 0 ⟨by simp, by simp⟩
  simpa using this

theorem finish_div (hr : ToNearest rnd) {k : ℕ} {Q P a W d : ℝ} (hW : 0 ≤ W) (hd : 0 < d) (h : Near k Q P a) :
    Near (k + 3) (Q * (W / d)) (P * (W / d)) (rnd (rnd (a * rnd W) / d)) := by
  have h1 := (((h.mul ((Near.exact W).round hr)).round hr).mul (Near.exact (1 / d))).round hr
  rw [abs_of_nonneg hW, abs_of_pos (by positivity : 0 < 1 / d)] at h1
  rw [div_eq_mul_one_div (rnd _) d, div_eq_mul_one_div W d, ← mul_assoc, ← mul_assoc]
  exact h1

theorem finish_one (hr : ToNearest rnd) {k : ℕ} {Q P a W : ℝ} (hW : 0 ≤ W) (h : Near k Q P a) :
    Near (k + 3) (Q * W) (P * W) (rnd (a * rnd W)) := by
  have h1 := (h.mul ((Near.exact W).round hr)).round hr
  rw [abs_of_nonneg hW] at h1
  exact h1.upto (by omega)

/-- A weighted sum computed in double, of terms which are themselves known with an error. -/
theorem near_weighted {ι : Type} {S : Finset ι} {p q : ι → ℝ} {k : ℕ} {w v W E P : ℝ} (hv : Near k ((∑ i ∈ S, |p i|) * w) ((∑ i ∈ S, p i) * w) v)
    (hw : 0 ≤ w) (hW : (S.card : ℝ) * w ≤ W) (hE0 : 0 ≤ E) (hP0 : 0 ≤ P) (hE : ∀ i ∈ S, |p i - q i| ≤ E) (hP : ∀ i ∈ S, |p i| ≤ P) :
    |v - (∑ i ∈ S, q i) * w| ≤ W * E + gam k * (W * P) := by
  have h1 : (∑ i ∈ S, |p i|) * w ≤ W * P := by
    have := sum_le_sum hP
    rw [sum_const, nsmul_eq_mul] at this
    calc _ ≤ (S.card : ℝ) * P * w := mul_le_mul_of_nonneg_right this hw
      _ = (S.card : ℝ) * w * P := by ring
      _ ≤ W * P := mul_le_mul_of_nonneg_right hW hP0
  have h2 : |(∑ i ∈ S, p i) * w - (∑ i ∈ S, q i) * w| ≤ W * E := by
    rw [← sub_mul, ← sum_sub_distrib, abs_mul, abs_of_nonneg hw]
    have := (abs_sum_le_sum_abs (fun i => p i - q i) S).trans (sum_le_sum hE)
    rw [sum_const, nsmul_eq_mul] at this
    calc _ ≤ (S.card : ℝ) * E * w := mul_le_mul_of_nonneg_right this hw
      _ = (S.card : ℝ) * w * E := by ring
      _ ≤ W * E := mul_le_mul_of_nonneg_right hW hE0
  have h3 := hv.err.trans (mul_le_mul_of_nonneg_left h1 (gam_nonneg k))
  have := abs_add_le (v - (∑ i ∈ S, p i) * w) ((∑ i ∈ S, p i) * w - (∑ i ∈ S, q i) * w)
  rw [sub_add_sub_cancel] at this
  linarith

/-! ## What is known of each node -/

/-- Nodes computed close to the exact ones. -/
def NodesClose (X : Domain ℝ) (n : Nat) (t x : Nat → ℝ) : Prop := ∀ r, r ≤ n →
  |t r| ≤ 1 ∧ |t r - chebNode n r| ≤ 21 / 2 ^ 53 ∧ X.Mem (x r) ∧ |X.unit (x r) - chebNode n r| ≤ 16 * X.cond / 2 ^ 53

theorem poly_at_node {ε : ℝ} {n : Nat} (hT : PolyClose ε n TR) (hε : ε ≤ 1) {X : Domain ℝ} {t x : Nat → ℝ} (hx : NodesClose X n t x) {i r : Nat}
    (hi : i ≤ n) (hr : r ≤ n) :
    |TR i (t r)| ≤ 2 ∧ |chebT i (chebNode n r)| ≤ 1 ∧ |TR i (t r) - chebT i (chebNode n r)| ≤ ε + 21 * n ^ 2 / 2 ^ 53 := by
  obtain ⟨x1, x2, x3, x4⟩ := hx r hr
  have hnle : |chebNode n r| ≤ 1 := by
    have := abs_chebNode_le n r hr
    have h3 : 0 < 1 / (2 * ((n : ℝ) + 1) ^ 2) := by positivity
    linarith
  have e1 := hT i hi (t r) x1
  rw [← chebT_eq] at e1
  refine ⟨?_, abs_chebT_le i hnle, ?_⟩
  · have h2 := abs_chebT_le i x1
    have := abs_add_le (TR i (t r) - chebT i (t r)) (chebT i (t r))
    rw [sub_add_cancel] at this
    linarith
  · have hi2 : (i : ℝ) ^ 2 ≤ (n : ℝ) ^ 2 := pow_le_pow_left₀ (Nat.cast_nonneg i) (by exact_mod_cast hi) 2
    have e2 := chebT_lipschitz i x1 hnle
    have e3 : (i : ℝ) ^ 2 * |t r - chebNode n r| ≤ (n : ℝ) ^ 2 * (21 / 2 ^ 53) := mul_le_mul hi2 x2 (abs_nonneg _) (by positivity)
    have := abs_add_le (TR i (t r) - chebT i (t r)) (chebT i (t r) - chebT i (chebNode n r))
    rw [sub_add_sub_cancel] at this
    rw [show (n : ℝ) ^ 2 * (21 / 2 ^ 53) = 21 * n ^ 2 / 2 ^ 53 by ring] at e3
    linarith

theorem node_dist {X : Domain ℝ} (hX : X.Usual) {n : Nat} {t x : Nat → ℝ} (hx : NodesClose X n t x) {r : Nat} (hr : r ≤ n) {L : ℝ} (hL : 0 ≤ L) :
    X.Mem (x r) ∧ X.Mem (X.node n r) ∧ L * |X.unit (x r) - X.unit (X.node n r)| ≤ 16 * (X.cond * L) / 2 ^ 53 := by
  obtain ⟨x1, x2, x3, x4⟩ := hx r hr
  refine ⟨x3, ((C37_nodes hX).1 r hr).1, ?_⟩
  rw [(node_defined (Domain.usual_proper hX) hr).2]
  refine (mul_le_mul_of_nonneg_left x4 hL).trans (le_of_eq ?_)
  ring

theorem weight_le (n i : Nat) : 0 ≤ chebWeight n i ∧ ((n : ℝ) + 1) * chebWeight n i ≤ 2 := by
  unfold chebWeight
  constructor
  · split_ifs <;> positivity
  · split_ifs
    · field_simp; norm_num
    · field_simp; norm_num

theorem prod_close {a a' b b' α β : ℝ} (h1 : |a' - a| ≤ α) (h2 : |b' - b| ≤ β) {A B : ℝ} (ha : |a| ≤ A) (hb : |b'| ≤ B) :
    |a' * b' - a * b| ≤ α * B + A * β := by
  rw [show a' * b' - a * b = (a' - a) * b' + a * (b' - b) by ring]
  refine (abs_add_le _ _).trans ?_
  rw [abs_mul, abs_mul]
  exact add_le_add (mul_le_mul h1 hb (abs_nonneg _) ((abs_nonneg _).trans h1)) (mul_le_mul ha h2 (abs_nonneg _) ((abs_nonneg _).trans ha))

theorem abs_mul_le_mul {a b A B : ℝ} (ha : |a| ≤ A) (hb : |b| ≤ B) : |a * b| ≤ A * B := by
  rw [abs_mul]
  exact mul_le_mul ha hb (abs_nonneg _) ((abs_nonneg _).trans ha)

/-! ## Two variables -/

namespace CS2

variable {s : CS2 ℝ} {F : ℝ → ℝ → ℝ} {n m : Nat} {sx sy : Seg ℝ} {a : Nat × Nat → ℝ}

/-- The coefficient `(i, j)` after `Compute_aij` in double, from the nodes computed. -/
noncomputable def nextR (rnd : ℝ → ℝ) (TR : Nat → ℝ → ℝ) (F : ℝ → ℝ → ℝ) (n m : Nat) (t x u y : Nat → ℝ) (p : Nat × Nat) (v : ℝ) : ℝ :=
  let b := rnd (accN (fun r a => accN (fun q a => rnd (a + rnd (rnd (F (x r) (y q) * TR p.1 (t r)) * TR p.2 (u q)))) a (m + 1)) v (n + 1) *
    rnd (4 / rnd (rnd ((n : ℝ) + 1) * rnd ((m : ℝ) + 1))))
  if p.1 = 0 ∧ p.2 = 0 then rnd (b / 4) else if (p.1 = 0 ∧ p.2 ≠ 0) ∨ (p.1 ≠ 0 ∧ p.2 = 0) then rnd (b / 2) else b

theorem computeAijR_ok (B : Build) (h : s.Holds F n m sx sy a) {t x u y : Nat → ℝ}
    (hx : abscissaeR rnd cosR sx n = .ok ((List.range (n + 1)).map (fun r => (t r, x r))))
    (hy : abscissaeR rnd cosR sy m = .ok ((List.range (m + 1)).map (fun r => (u r, y r)))) :
    ∃ s', s.computeAijR rnd cosR TR B = .ok s' ∧ s'.Holds F n m sx sy (fun p => nextR rnd TR F n m t x u y p (a p)) := by
  obtain ⟨rfl, rfl, rfl, rfl, rfl, e0, he, hea⟩ := h
  unfold computeAijR
  rw [hx, Res.ok_bind, hy, Res.ok_bind, he]
  let S := matStore ℝ B (s.m_order_x + 1) (s.m_order_y + 1)
  let f := nextR rnd TR s.m_function s.m_order_x s.m_order_y t x u y
  refine ⟨_, (Res.bind_of_eq (S.sweep (fun i p => ∃ j, j < s.m_order_y + 1 ∧ p = (i, j)) f
    (by rintro i j p ⟨_, _, rfl⟩ ⟨_, _, h⟩; exact congrArg Prod.fst h)
    (fun i hi e => S.sweep (fun j p => p = (i, j)) f (by intro i j p h1 h2; rw [h1] at h2; exact congrArg Prod.snd h2)
      (fun j hj e => ?_) e) e0)).trans rfl, rfl, rfl, rfl, rfl, rfl, (fun p => pick (∃ i, i < s.m_order_x + 1 ∧ ∃ j, j < s.m_order_y + 1 ∧ p = (i, j)) (f p (e0 p)) (e0 p)), rfl, ?_⟩
  · have hv : S.valid (i, j) := ⟨hi, hj⟩
    refine (Res.bind_of_eq (accum_accN S (p := (i, j)) (fun r a => accN (fun q a => rnd (a + rnd (rnd (s.m_function (x r) (y q) * TR i (t r)) *
      TR j (u q)))) a (s.m_order_y + 1)) (fun r hr e => ?_) e)).trans ?_
    · rw [vAt_map _ hr, Res.ok_bind]
      refine accum_accN S (p := (i, j)) (fun q a => rnd (a + rnd (rnd (s.m_function (x r) (y q) * TR i (t r)) * TR j (u q)))) (fun q hq e => ?_) e
      rw [vAt_map _ hq, Res.ok_bind]
      exact S.modify hv e (fun a => rnd (a + rnd (rnd (s.m_function (x r) (y q) * TR i (t r)) * TR j (u q))))
    refine (Res.bind_of_eq (S.get_ok _ (i, j) hv)).trans ((Res.bind_of_eq (S.set_ok _ (i, j) _ hv)).trans ?_)
    rw [Function.update_idem, Function.update_self, Store.update_eq_if (i, j) f e]
    simp only [f, nextR]
    split_ifs with h0 h1
    · refine (Res.bind_of_eq (S.get_ok _ (i, j) hv)).trans ((S.set_ok _ (i, j) _ hv).trans ?_)
      rw [Function.update_idem, Function.update_self]
    · refine (Res.bind_of_eq (S.get_ok _ (i, j) hv)).trans ((S.set_ok _ (i, j) _ hv).trans ?_)
      rw [Function.update_idem, Function.update_self]
    · rfl
  · intro i j hi hj
    show pick _ _ _ = _
    rw [pick_pos ⟨i, hi, j, hj, rfl⟩, hea i j hi hj]

theorem nextR_near (hr : ToNearest rnd) (hnm : (n + 1) * (m + 1) < 2 ^ 53) (t x u y : Nat → ℝ) (i j : Nat) :
    Near ((n + 1) * (m + 1) + 5)
      ((∑ z ∈ range (n + 1) ×ˢ range (m + 1), |F (x z.1) (y z.2) * TR i (t z.1) * TR j (u z.2)|) * (chebWeight n i * chebWeight m j))
      ((∑ z ∈ range (n + 1) ×ˢ range (m + 1), F (x z.1) (y z.2) * TR i (t z.1) * TR j (u z.2)) * (chebWeight n i * chebWeight m j))
      (nextR rnd TR F n m t x u y (i, j) 0) := by
  have hn1 : n + 1 ≤ (n + 1) * (m + 1) := Nat.le_mul_of_pos_right _ (by omega)
  have hm1 : m + 1 ≤ (n + 1) * (m + 1) := Nat.le_mul_of_pos_left _ (by omega)
  have e1 : rnd ((n : ℝ) + 1) = (n : ℝ) + 1 := by
    have := toNearest_double hr (double_nat (n := n + 1) (by omega))
    push_cast at this
    exact this
  have e2 : rnd ((m : ℝ) + 1) = (m : ℝ) + 1 := by
    have := toNearest_double hr (double_nat (n := m + 1) (by omega))
    push_cast at this
    exact this
  have e3 : rnd (((n : ℝ) + 1) * ((m : ℝ) + 1)) = ((n : ℝ) + 1) * ((m : ℝ) + 1) := by
    have := toNearest_double hr (double_nat (n := (n + 1) * (m + 1)) hnm)
    push_cast at this
    exact this
  have hacc := (adds_loop (fun r => adds_loop (fun q => adds_one hr (k₀ := 2) (Q := |F (x r) (y q) * TR i (t r) * TR j (u q)|)
    (p := F (x r) (y q) * TR i (t r) * TR j (u q)) (g := rnd (rnd (F (x r) (y q) * TR i (t r)) * TR j (u q))) (by
      have := (((Near.exact (F (x r) (y q) * TR i (t r))).round hr).mul (Near.exact (TR j (u q)))).round hr
      rwa [← abs_mul] at this)) (m + 1)) (n + 1)).start
  rw [sum_product, sum_product]
  unfold nextR
  rw [e1, e2, e3]
  have hW : (0 : ℝ) ≤ 4 / (((n : ℝ) + 1) * ((m : ℝ) + 1)) := by positivity
  have hk : 2 + (n + 1) * ((m + 1) * 1) + 3 = (n + 1) * (m + 1) + 5 := by ring
  simp only []
  split_ifs with h0 h1
  · have hw : chebWeight n i * chebWeight m j = 4 / (((n : ℝ) + 1) * ((m : ℝ) + 1)) / 4 := by
      rw [chebWeight, chebWeight, if_pos h0.1, if_pos h0.2]
      field_simp
    rw [hw, ← hk]
    exact finish_div hr hW (by norm_num) hacc
  · have hw : chebWeight n i * chebWeight m j = 4 / (((n : ℝ) + 1) * ((m : ℝ) + 1)) / 2 := by
      rw [chebWeight, chebWeight]
      rcases h1 with ⟨h1, h2⟩ | ⟨h1, h2⟩
      · rw [if_pos h1, if_neg h2]; field_simp; norm_num
      · rw [if_neg h1, if_pos h2]; field_simp; norm_num
    rw [hw, ← hk]
    exact finish_div hr hW (by norm_num) hacc
  · have hw : chebWeight n i * chebWeight m j = 4 / (((n : ℝ) + 1) * ((m : ℝ) + 1)) := by
      rw [chebWeight, chebWeight, if_neg (by omega), if_neg (by omega)]
      field_simp; norm_num
    rw [hw, ← hk]
    exact finish_one hr hW hacc

end CS2

theorem coeff_close_2d (hr : ToNearest rnd) {F G : ℝ → ℝ → ℝ} {X Y : Domain ℝ} (hX : X.Usual) (hY : Y.Usual) {n m : Nat}
    (hnm : (n + 1) * (m + 1) ≤ 2 ^ 25) {ε φ Lx Ly M : ℝ} (hT : PolyClose ε (max n m) TR) (hε : ε ≤ 1) (hF : Computes2 F G X Y φ Lx Ly M)
    {t x u y : Nat → ℝ} (hx : NodesClose X n t x) (hy : NodesClose Y m u y) {i j : Nat} (hi : i ≤ n) (hj : j ≤ m) :
    |CS2.nextR rnd TR F n m t x u y (i, j) 0 - CS2.next G n m X Y (i, j) 0| ≤ coeffErr2 n m (X.cond * Lx + Y.cond * Ly) ε φ M := by
  have hTx : PolyClose ε n TR := fun i hi => hT i (hi.trans (le_max_left _ _))
  have hTy : PolyClose ε m TR := fun i hi => hT i (hi.trans (le_max_right _ _))
  have hκx := Domain.cond_ge hX
  have hκy := Domain.cond_ge hY
  obtain ⟨hLx, hLy⟩ := hF.rate
  have hx0 := (hx 0 (Nat.zero_le n)).2.2.1
  have hy0 := (hy 0 (Nat.zero_le m)).2.2.1
  have hφ : 0 ≤ φ := (abs_nonneg _).trans (hF.close _ _ hx0 hy0)
  have hM : 0 ≤ M := (abs_nonneg _).trans (hF.bound _ _ hx0 hy0)
  have hε0 : 0 ≤ ε := (abs_nonneg _).trans (hTx 0 (Nat.zero_le n) 0 (by norm_num))
  obtain ⟨wx0, wx⟩ := weight_le n i
  obtain ⟨wy0, wy⟩ := weight_le m j
  have hlam : 0 ≤ X.cond * Lx + Y.cond * Ly := by
    have := mul_nonneg (show 0 ≤ X.cond by linarith) hLx
    have := mul_nonneg (show 0 ≤ Y.cond by linarith) hLy
    linarith
  have key := near_weighted (CS2.nextR_near (TR := TR) (F := F) hr (by omega) t x u y i j)
    (q := fun z => G (X.node n z.1) (Y.node m z.2) * chebT i (chebNode n z.1) * chebT j (chebNode m z.2)) (W := 4)
    (E := 4 * (φ + 16 * (X.cond * Lx + Y.cond * Ly) / 2 ^ 53) + 2 * M * (2 * ε + 21 * (n ^ 2 + m ^ 2) / 2 ^ 53)) (P := 4 * (M + φ))
    (mul_nonneg wx0 wy0) (by
      rw [card_product, card_range, card_range]
      push_cast
      have := mul_le_mul wx wy (mul_nonneg (by positivity) wy0) (by norm_num)
      calc _ = ((n : ℝ) + 1) * chebWeight n i * (((m : ℝ) + 1) * chebWeight m j) := by ring
        _ ≤ _ := this
        _ = 4 := by norm_num) (by positivity) (by positivity) (fun z hz => ?_) (fun z hz => ?_)
  · have hg : gam ((n + 1) * (m + 1) + 5) ≤ ((n + 1) * (m + 1) + 6) / 2 ^ 53 := by
      have := gam_le (k := (n + 1) * (m + 1) + 5) (by omega)
      push_cast at this
      unfold uround at this
      calc _ ≤ _ := this
        _ = _ := by ring
    have e : (∑ z ∈ range (n + 1) ×ˢ range (m + 1), G (X.node n z.1) (Y.node m z.2) * chebT i (chebNode n z.1) * chebT j (chebNode m z.2)) *
        (chebWeight n i * chebWeight m j) = CS2.next G n m X Y (i, j) 0 := by
      rw [CS2.next, zero_add, sum_product, range_eq_Ico, range_eq_Ico]
    rw [e] at key
    refine key.trans ?_
    have := mul_le_mul_of_nonneg_right hg (show 0 ≤ 4 * (4 * (M + φ)) by linarith)
    unfold coeffErr2
    linarith
  all_goals
    obtain ⟨hz1, hz2⟩ := mem_product.1 hz
    have hz1 : z.1 ≤ n := by have := mem_range.1 hz1; omega
    have hz2 : z.2 ≤ m := by have := mem_range.1 hz2; omega
    obtain ⟨a1, a2, a3⟩ := poly_at_node hTx hε hx hi hz1
    obtain ⟨b1, b2, b3⟩ := poly_at_node hTy hε hy hj hz2
    obtain ⟨c1, c2, c3⟩ := node_dist hX hx hz1 hLx
    obtain ⟨d1, d2, d3⟩ := node_dist hY hy hz2 hLy
    have f1 := hF.close _ _ c1 d1
  · have f2 := hF.lipschitz _ _ _ _ c1 c2 d1 d2
    have f3 : |F (x z.1) (y z.2) - G (X.node n z.1) (Y.node m z.2)| ≤ φ + 16 * (X.cond * Lx + Y.cond * Ly) / 2 ^ 53 := by
      have := abs_add_le (F (x z.1) (y z.2) - G (x z.1) (y z.2)) (G (x z.1) (y z.2) - G (X.node n z.1) (Y.node m z.2))
      rw [sub_add_sub_cancel] at this
      rw [show 16 * (X.cond * Lx + Y.cond * Ly) / 2 ^ 53 = 16 * (X.cond * Lx) / 2 ^ 53 + 16 * (Y.cond * Ly) / 2 ^ 53 by ring]
      linarith
    have g1 := hF.bound _ _ c2 d2
    have h1 := prod_close f3 a3 g1 a1
    have h2 := prod_close h1 b3 (abs_mul_le_mul g1 a2) b1
    refine h2.trans ?_
    have : 0 ≤ M * (ε + 21 * (m : ℝ) ^ 2 / 2 ^ 53) := by positivity
    rw [show 2 * M * (2 * ε + 21 * ((n : ℝ) ^ 2 + m ^ 2) / 2 ^ 53) = 2 * (M * (ε + 21 * (n : ℝ) ^ 2 / 2 ^ 53)) + 2 * (M * (ε + 21 * (m : ℝ) ^ 2 / 2 ^ 53)) by ring]
    linarith
  · have g1 := hF.bound _ _ c1 d1
    have g2 : |F (x z.1) (y z.2)| ≤ M + φ := by
      have := abs_add_le (F (x z.1) (y z.2) - G (x z.1) (y z.2)) (G (x z.1) (y z.2))
      rw [sub_add_cancel] at this
      linarith
    refine (abs_mul_le_mul (abs_mul_le_mul g2 a1) b1).trans (le_of_eq ?_)
    ring

theorem weighted_le {ι : Type} {S : Finset ι} {q : ι → ℝ} {w W M : ℝ} (hw : 0 ≤ w) (hW : (S.card : ℝ) * w ≤ W) (hM : 0 ≤ M)
    (hq : ∀ i ∈ S, |q i| ≤ M) : |(∑ i ∈ S, q i) * w| ≤ W * M := by
  rw [abs_mul, abs_of_nonneg hw]
  have := (abs_sum_le_sum_abs q S).trans (sum_le_sum hq)
  rw [sum_const, nsmul_eq_mul] at this
  calc _ ≤ (S.card : ℝ) * M * w := mul_le_mul_of_nonneg_right this hw
    _ = (S.card : ℝ) * w * M := by ring
    _ ≤ W * M := mul_le_mul_of_nonneg_right hW hM

theorem poly_node_le {n i r : Nat} (hr : r ≤ n) : |chebT i (chebNode n r)| ≤ 1 := by
  refine abs_chebT_le i ?_
  have := abs_chebNode_le n r hr
  have h3 : 0 < 1 / (2 * ((n : ℝ) + 1) ^ 2) := by positivity
  linarith

theorem abs_next_le_2d {G : ℝ → ℝ → ℝ} {X Y : Domain ℝ} (hX : X.Usual) (hY : Y.Usual) {n m : Nat} {M : ℝ}
    (hG : ∀ x y, X.Mem x → Y.Mem y → |G x y| ≤ M) (i j : Nat) : |CS2.next G n m X Y (i, j) 0| ≤ 4 * M := by
  have hM : 0 ≤ M := (abs_nonneg _).trans (hG _ _ ((C37_nodes hX (n := n)).1 0 (Nat.zero_le n)).1 ((C37_nodes hY (n := m)).1 0 (Nat.zero_le m)).1)
  obtain ⟨wx0, wx⟩ := weight_le n i
  obtain ⟨wy0, wy⟩ := weight_le m j
  have e : (∑ z ∈ range (n + 1) ×ˢ range (m + 1), G (X.node n z.1) (Y.node m z.2) * chebT i (chebNode n z.1) * chebT j (chebNode m z.2)) *
      (chebWeight n i * chebWeight m j) = CS2.next G n m X Y (i, j) 0 := by
    rw [CS2.next, zero_add, sum_product, range_eq_Ico, range_eq_Ico]
  rw [← e]
  refine weighted_le (mul_nonneg wx0 wy0) ?_ hM fun z hz => ?_
  · rw [card_product, card_range, card_range]
    push_cast
    have := mul_le_mul wx wy (mul_nonneg (by positivity) wy0) (by norm_num)
    calc _ = ((n : ℝ) + 1) * chebWeight n i * (((m : ℝ) + 1) * chebWeight m j) := by ring
      _ ≤ _ := this
      _ = 4 := by norm_num
  · obtain ⟨hz1, hz2⟩ := mem_product.1 hz
    have hz1 : z.1 ≤ n := by have := mem_range.1 hz1; omega
    have hz2 : z.2 ≤ m := by have := mem_range.1 hz2; omega
    have := abs_mul_le_mul (abs_mul_le_mul (hG _ _ ((C37_nodes hX).1 z.1 hz1).1 ((C37_nodes hY).1 z.2 hz2).1) (poly_node_le (i := i) hz1)) (poly_node_le (i := j) hz2)
    rwa [mul_one, mul_one] at this

theorem cheb2_sub_le {u v : ℝ} (hu : |u| ≤ 1) (hv : |v| ≤ 1) (n m : Nat) (a a' : Nat → Nat → ℝ) :
    |cheb2 n m a' u v - cheb2 n m a u v| ≤ ∑ i ∈ range (n + 1), ∑ j ∈ range (m + 1), |a' i j - a i j| := by
  rw [cheb2_nested, cheb2_nested]
  exact (cheb1_sub_le hu _ _ _).trans (sum_le_sum fun i _ => cheb1_sub_le hv _ _ _)

theorem cheb3_sub_le {u v w : ℝ} (hu : |u| ≤ 1) (hv : |v| ≤ 1) (hw : |w| ≤ 1) (n m l : Nat) (a a' : Nat → Nat → Nat → ℝ) :
    |cheb3 n m l a' u v w - cheb3 n m l a u v w| ≤ ∑ i ∈ range (n + 1), ∑ j ∈ range (m + 1), ∑ k ∈ range (l + 1), |a' i j k - a i j k| := by
  rw [cheb3_nested, cheb3_nested]
  exact (cheb1_sub_le hu _ _ _).trans (sum_le_sum fun i _ => (cheb1_sub_le hv _ _ _).trans (sum_le_sum fun j _ => cheb1_sub_le hw _ _ _))

/-- From the error of the coefficients to the error of the value. -/
theorem series_total {v c' c₀ e N C K M : ℝ} {A : ℝ} (he : 0 ≤ e) (h1 : |v - c'| ≤ e * A) (h2 : |c' - c₀| ≤ N * C) (h3 : A ≤ N * (K * M + C)) :
    |v - c₀| ≤ N * ((1 + e) * C + K * e * M) := by
  have h4 := mul_le_mul_of_nonneg_left h3 he
  have := abs_add_le (v - c') (c' - c₀)
  rw [sub_add_sub_cancel] at this
  linarith

/-- C135, two variables: the coefficients computed in double and the value computed in double from them differ by at most `seriesErr2` from what the same
two calls would return in exact arithmetic, for the exact function. -/
theorem C135_error_2d (hr : ToNearest rnd) (hc : CosClose cosR) (B : Build) {F G : ℝ → ℝ → ℝ} {n m : Nat} {s s₀ : CS2 ℝ} {X Y : Domain ℝ}
    (hs : Fresh2 F n m s X Y) (hs₀ : Fresh2 G n m s₀ X Y) (hX : X.Usual) (hY : Y.Usual) (hn : X.cond * ((n : ℝ) + 1) ^ 2 ≤ 2 ^ 40)
    (hm : Y.cond * ((m : ℝ) + 1) ^ 2 ≤ 2 ^ 40) (hnm : (n + 1) * (m + 1) ≤ 2 ^ 25) {ε φ Lx Ly M : ℝ} (hT : PolyClose ε (max n m) TR) (hε : ε ≤ 1)
    (hF : Computes2 F G X Y φ Lx Ly M) :
    ∃ s' s₀', s.computeAijR rnd cosR TR B = .ok s' ∧ s₀.computeAij B = .ok s₀' ∧ ∀ x y, X.Mem x → Y.Mem y → ∃ v v₀, s'.evaluateR rnd B x y = .ok v ∧
      s₀'.evaluate B x y = .ok v₀ ∧ |v - v₀| ≤ seriesErr2 n m X.cond Y.cond (X.cond * Lx + Y.cond * Ly) ε φ M := by
  obtain ⟨sx, sy, rfl, rfl, h⟩ := hs.holds
  obtain ⟨sx₀, sy₀, ex₀, ey₀, h₀⟩ := hs₀.holds
  obtain ⟨t, x, hx, hx'⟩ := abscissaeR_ok hr hc hX hn
  obtain ⟨u, y, hy, hy'⟩ := abscissaeR_ok hr hc hY hm
  obtain ⟨s', h1, h2⟩ := CS2.computeAijR_ok (TR := TR) B h hx hy
  obtain ⟨s₀', h3, h4⟩ := CS2.computeAij_ok B h₀
  refine ⟨s', s₀', h1, h3, fun p q hp hq => ?_⟩
  obtain ⟨-, b2, b3, b4, b5, e0, b6, b7⟩ := h2
  obtain ⟨v, v1, v2⟩ := C132_error_2d hr B (s := s') (by rw [b6, b2]) (by rw [b6, b3]) (by rw [b4]; exact hX) (by rw [b5]; exact hY) (x := p) (y := q)
    (by rw [b4]; exact hp) (by rw [b5]; exact hq)
  refine ⟨v, _, v1, CS2.evaluate_ok B h4 (by rw [ex₀]; exact (Domain.mem_unit hX hp).1) (by rw [ey₀]; exact (Domain.mem_unit hY hq).1), ?_⟩
  rw [ex₀, ey₀]
  rw [b2, b3, b4, b5] at v2
  have hco : ∀ i j, i ≤ n → j ≤ m → |s'.m_aij.entry i j - CS2.next G n m sx.dom sy.dom (i, j) 0| ≤
      coeffErr2 n m (sx.dom.cond * Lx + sy.dom.cond * Ly) ε φ M := fun i j hi hj => by
    rw [b6]
    show |e0 (i, j) - _| ≤ _
    rw [b7 i j (by omega) (by omega)]
    exact coeff_close_2d hr hX hY hnm hT hε hF hx' hy' hi hj
  have hEx := chebErr_nonneg n (Domain.cond_ge hX)
  have hEy := chebErr_nonneg m (Domain.cond_ge hY)
  refine series_total (by nlinarith) v2 ((cheb2_sub_le (unit_le hX hp) (unit_le hY hq) _ _ _ _).trans ?_) ?_
  · rw [mul_assoc]
    exact sum_range_le_const fun i hi => sum_range_le_const fun j hj => hco i j hi hj
  · rw [mul_assoc]
    refine sum_range_le_const fun i hi => sum_range_le_const fun j hj => ?_
    have e1 := hco i j hi hj
    have e2 := abs_next_le_2d hX hY (n := n) (m := m) hF.bound i j
    have := abs_add_le (s'.m_aij.entry i j - CS2.next G n m sx.dom sy.dom (i, j) 0) (CS2.next G n m sx.dom sy.dom (i, j) 0)
    rw [sub_add_cancel] at this
    linarith

/-! ## Three variables -/

namespace CS3

variable {s : CS3 ℝ} {F : ℝ → ℝ → ℝ → ℝ} {n m l : Nat} {sx sy sz : Seg ℝ} {a : Nat × Nat × Nat → ℝ}

/-- The term of the sum, in double. -/
noncomputable def termR (rnd : ℝ → ℝ) (TR : Nat → ℝ → ℝ) (F : ℝ → ℝ → ℝ → ℝ) (t x u y w z : Nat → ℝ) (p : Nat × Nat × Nat) (r q c : Nat) : ℝ :=
  rnd (rnd (rnd (F (x r) (y q) (z c) * TR p.1 (t r)) * TR p.2.1 (u q)) * TR p.2.2 (w c))

/-- The coefficient `(i, j, k)` after `Compute_aijk` in double, from the nodes computed. -/
noncomputable def nextR (rnd : ℝ → ℝ) (TR : Nat → ℝ → ℝ) (F : ℝ → ℝ → ℝ → ℝ) (n m l : Nat) (t x u y w z : Nat → ℝ) (p : Nat × Nat × Nat) (v : ℝ) : ℝ :=
  let b := rnd (accN (fun r a => accN (fun q a => accN (fun c a => rnd (a + termR rnd TR F t x u y w z p r q c)) a (l + 1)) a (m + 1)) v (n + 1) *
    rnd (8 / rnd (rnd (rnd ((n : ℝ) + 1) * rnd ((m : ℝ) + 1)) * rnd ((l : ℝ) + 1))))
  if p.1 = 0 ∧ p.2.1 = 0 ∧ p.2.2 = 0 then rnd (b / 8)
  else if (p.1 = 0 ∧ p.2.1 ≠ 0 ∧ p.2.2 = 0) ∨ (p.1 ≠ 0 ∧ p.2.1 = 0 ∧ p.2.2 = 0) ∨ (p.1 = 0 ∧ p.2.1 = 0 ∧ p.2.2 ≠ 0) then rnd (b / 4)
  else if (p.1 = 0 ∧ p.2.1 ≠ 0 ∧ p.2.2 ≠ 0) ∨ (p.1 ≠ 0 ∧ p.2.1 = 0 ∧ p.2.2 ≠ 0) ∨ (p.1 ≠ 0 ∧ p.2.1 ≠ 0 ∧ p.2.2 = 0) then rnd (b / 2)
  else b

theorem computeAijkR_ok (B : Build) (h : s.Holds F n m l sx sy sz a) {t x u y w z : Nat → ℝ}
    (hx : abscissaeR rnd cosR sx n = .ok ((List.range (n + 1)).map (fun r => (t r, x r))))
    (hy : abscissaeR rnd cosR sy m = .ok ((List.range (m + 1)).map (fun r => (u r, y r))))
    (hz : abscissaeR rnd cosR sz l = .ok ((List.range (l + 1)).map (fun r => (w r, z r)))) :
    ∃ s', s.computeAijkR rnd cosR TR B = .ok s' ∧ s'.Holds F n m l sx sy sz (fun p => nextR rnd TR F n m l t x u y w z p (a p)) := by
  obtain ⟨rfl, rfl, rfl, rfl, rfl, rfl, rfl, e0, he, hea⟩ := h
  unfold computeAijkR
  rw [hx, Res.ok_bind, hy, Res.ok_bind, hz, Res.ok_bind, he]
  let S := cubeStore ℝ B (s.m_order_x + 1) (s.m_order_y + 1) (s.m_order_z + 1)
  let f := nextR rnd TR s.m_function s.m_order_x s.m_order_y s.m_order_z t x u y w z
  refine ⟨_, (Res.bind_of_eq (S.sweep (fun i p => ∃ j, j < s.m_order_y + 1 ∧ ∃ k, k < s.m_order_z + 1 ∧ p = (i, j, k)) f
    (by rintro i j p ⟨_, _, _, _, rfl⟩ ⟨_, _, _, _, h⟩; exact congrArg Prod.fst h)
    (fun i hi e => S.sweep (fun j p => ∃ k, k < s.m_order_z + 1 ∧ p = (i, j, k)) f
      (by rintro i j p ⟨_, _, rfl⟩ ⟨_, _, h⟩; exact congrArg (fun p => p.2.1) h)
      (fun j hj e => S.sweep (fun k p => p = (i, j, k)) f
        (by intro i j p h1 h2; rw [h1] at h2; exact congrArg (fun p => p.2.2) h2)
        (fun k hk e => ?_) e) e) e0)).trans rfl, rfl, rfl, rfl, rfl, rfl, rfl, rfl,
    (fun p => pick (∃ i, i < s.m_order_x + 1 ∧ ∃ j, j < s.m_order_y + 1 ∧ ∃ k, k < s.m_order_z + 1 ∧ p = (i, j, k)) (f p (e0 p)) (e0 p)),
    rfl, ?_⟩
  · have hv : S.valid (i, j, k) := ⟨hi, hj, hk⟩
    refine (Res.bind_of_eq (accum_accN S (p := (i, j, k)) (fun r a => accN (fun q a => accN (fun c a => rnd (a +
      termR rnd TR s.m_function t x u y w z (i, j, k) r q c)) a (s.m_order_z + 1)) a (s.m_order_y + 1)) (fun r hr e => ?_) e)).trans ?_
    · rw [vAt_map _ hr, Res.ok_bind]
      refine accum_accN S (p := (i, j, k)) (fun q a => accN (fun c a => rnd (a + termR rnd TR s.m_function t x u y w z (i, j, k) r q c)) a
        (s.m_order_z + 1)) (fun q hq e => ?_) e
      rw [vAt_map _ hq, Res.ok_bind]
      refine accum_accN S (p := (i, j, k)) (fun c a => rnd (a + termR rnd TR s.m_function t x u y w z (i, j, k) r q c)) (fun c hc e => ?_) e
      rw [vAt_map _ hc, Res.ok_bind]
      exact S.modify hv e (fun a => rnd (a + termR rnd TR s.m_function t x u y w z (i, j, k) r q c))
    refine (Res.bind_of_eq (S.get_ok _ (i, j, k) hv)).trans ((Res.bind_of_eq (S.set_ok _ (i, j, k) _ hv)).trans ?_)
    rw [Function.update_idem, Function.update_self, Store.update_eq_if (i, j, k) f e]
    simp only [f, nextR]
    split_ifs with h0 h1 h2
    · refine (Res.bind_of_eq (S.get_ok _ (i, j, k) hv)).trans ((S.set_ok _ (i, j, k) _ hv).trans ?_)
      rw [Function.update_idem, Function.update_self]
    · refine (Res.bind_of_eq (S.get_ok _ (i, j, k) hv)).trans ((S.set_ok _ (i, j, k) _ hv).trans ?_)
      rw [Function.update_idem, Function.update_self]
    · refine (Res.bind_of_eq (S.get_ok _ (i, j, k) hv)).trans ((S.set_ok _ (i, j, k) _ hv).trans ?_)
      rw [Function.update_idem, Function.update_self]
    · rfl
  · intro i j k hi hj hk
    show pick _ _ _ = _
    rw [pick_pos ⟨i, hi, j, hj, k, hk, rfl⟩, hea i j k hi hj hk]

theorem nextR_near (hr : ToNearest rnd) (hnm : (n + 1) * (m + 1) * (l + 1) < 2 ^ 53) (t x u y w z : Nat → ℝ) (i j k : Nat) :
    Near ((n + 1) * (m + 1) * (l + 1) + 6)
      ((∑ d ∈ range (n + 1) ×ˢ range (m + 1) ×ˢ range (l + 1), |F (x d.1) (y d.2.1) (z d.2.2) * TR i (t d.1) * TR j (u d.2.1) * TR k (w d.2.2)|) *
        (chebWeight n i * chebWeight m j * chebWeight l k))
      ((∑ d ∈ range (n + 1) ×ˢ range (m + 1) ×ˢ range (l + 1), F (x d.1) (y d.2.1) (z d.2.2) * TR i (t d.1) * TR j (u d.2.1) * TR k (w d.2.2)) *
        (chebWeight n i * chebWeight m j * chebWeight l k))
      (nextR rnd TR F n m l t x u y w z (i, j, k) 0) := by
  have hnm1 : (n + 1) * (m + 1) ≤ (n + 1) * (m + 1) * (l + 1) := Nat.le_mul_of_pos_right _ (by omega)
  have hn1 : n + 1 ≤ (n + 1) * (m + 1) := Nat.le_mul_of_pos_right _ (by omega)
  have hm1 : m + 1 ≤ (n + 1) * (m + 1) := Nat.le_mul_of_pos_left _ (by omega)
  have hl1 : l + 1 ≤ (n + 1) * (m + 1) * (l + 1) := Nat.le_mul_of_pos_left _ (by positivity)
  have e1 : rnd ((n : ℝ) + 1) = (n : ℝ) + 1 := by
    have := toNearest_double hr (double_nat (n := n + 1) (by omega))
    push_cast at this
    exact this
  have e2 : rnd ((m : ℝ) + 1) = (m : ℝ) + 1 := by
    have := toNearest_double hr (double_nat (n := m + 1) (by omega))
    push_cast at this
    exact this
  have e3 : rnd ((l : ℝ) + 1) = (l : ℝ) + 1 := by
    have := toNearest_double hr (double_nat (n := l + 1) (by omega))
    push_cast at this
    exact this
  have e4 : rnd (((n : ℝ) + 1) * ((m : ℝ) + 1)) = ((n : ℝ) + 1) * ((m : ℝ) + 1) := by
    have := toNearest_double hr (double_nat (n := (n + 1) * (m + 1)) (by omega))
    push_cast at this
    exact this
  have e5 : rnd (((n : ℝ) + 1) * ((m : ℝ) + 1) * ((l : ℝ) + 1)) = ((n : ℝ) + 1) * ((m : ℝ) + 1) * ((l : ℝ) + 1) := by
    have := toNearest_double hr (double_nat (n := (n + 1) * (m + 1) * (l + 1)) hnm)
    push_cast at this
    exact this
  have hacc := (adds_loop (fun r => adds_loop (fun q => adds_loop (fun c => adds_one hr (k₀ := 3)
    (Q := |F (x r) (y q) (z c) * TR i (t r) * TR j (u q) * TR k (w c)|)
    (p := F (x r) (y q) (z c) * TR i (t r) * TR j (u q) * TR k (w c)) (g := termR rnd TR F t x u y w z (i, j, k) r q c) (by
      have := (((((Near.exact (F (x r) (y q) (z c) * TR i (t r))).round hr).mul (Near.exact (TR j (u q)))).round hr).mul (Near.exact (TR k (w c)))).round hr
      rwa [← abs_mul, ← abs_mul] at this)) (l + 1)) (m + 1)) (n + 1)).start
  simp only [sum_product]
  unfold nextR
  rw [e1, e2, e3, e4, e5]
  have hW : (0 : ℝ) ≤ 8 / (((n : ℝ) + 1) * ((m : ℝ) + 1) * ((l : ℝ) + 1)) := by positivity
  have hk : 3 + (n + 1) * ((m + 1) * ((l + 1) * 1)) + 3 = (n + 1) * (m + 1) * (l + 1) + 6 := by ring
  simp only []
  split_ifs with h0 h1 h2
  · have hw : chebWeight n i * chebWeight m j * chebWeight l k = 8 / (((n : ℝ) + 1) * ((m : ℝ) + 1) * ((l : ℝ) + 1)) / 8 := by
      rw [chebWeight, chebWeight, chebWeight, if_pos h0.1, if_pos h0.2.1, if_pos h0.2.2]
      field_simp
    rw [hw, ← hk]
    exact finish_div hr hW (by norm_num) hacc
  · have hw : chebWeight n i * chebWeight m j * chebWeight l k = 8 / (((n : ℝ) + 1) * ((m : ℝ) + 1) * ((l : ℝ) + 1)) / 4 := by
      rw [chebWeight, chebWeight, chebWeight]
      rcases h1 with ⟨h1, h2, h3⟩ | ⟨h1, h2, h3⟩ | ⟨h1, h2, h3⟩ <;> simp only [h1, h2, h3, if_true, if_false] <;> field_simp <;> norm_num
    rw [hw, ← hk]
    exact finish_div hr hW (by norm_num) hacc
  · have hw : chebWeight n i * chebWeight m j * chebWeight l k = 8 / (((n : ℝ) + 1) * ((m : ℝ) + 1) * ((l : ℝ) + 1)) / 2 := by
      rw [chebWeight, chebWeight, chebWeight]
      rcases h2 with ⟨h1, h2, h3⟩ | ⟨h1, h2, h3⟩ | ⟨h1, h2, h3⟩ <;> simp only [h1, h2, h3, if_true, if_false] <;> field_simp <;> norm_num
    rw [hw, ← hk]
    exact finish_div hr hW (by norm_num) hacc
  · have hw : chebWeight n i * chebWeight m j * chebWeight l k = 8 / (((n : ℝ) + 1) * ((m : ℝ) + 1) * ((l : ℝ) + 1)) := by
      rw [chebWeight, chebWeight, chebWeight, if_neg (by omega), if_neg (by omega), if_neg (by omega)]
      field_simp; norm_num
    rw [hw, ← hk]
    exact finish_one hr hW hacc

end CS3

theorem weight3_le (n m l i j k : Nat) : 0 ≤ chebWeight n i * chebWeight m j * chebWeight l k ∧
    ((range (n + 1) ×ˢ range (m + 1) ×ˢ range (l + 1)).card : ℝ) * (chebWeight n i * chebWeight m j * chebWeight l k) ≤ 8 := by
  obtain ⟨wx0, wx⟩ := weight_le n i
  obtain ⟨wy0, wy⟩ := weight_le m j
  obtain ⟨wz0, wz⟩ := weight_le l k
  refine ⟨by positivity, ?_⟩
  rw [card_product, card_product, card_range, card_range, card_range]
  push_cast
  have h1 := mul_le_mul wx wy (mul_nonneg (by positivity) wy0) (by norm_num)
  have h2 := mul_le_mul h1 wz (mul_nonneg (by positivity) wz0) (by norm_num)
  calc _ = ((n : ℝ) + 1) * chebWeight n i * (((m : ℝ) + 1) * chebWeight m j) * (((l : ℝ) + 1) * chebWeight l k) := by ring
    _ ≤ _ := h2
    _ = 8 := by norm_num

theorem next3_eq (G : ℝ → ℝ → ℝ → ℝ) (n m l : Nat) (X Y Z : Domain ℝ) (i j k : Nat) :
    (∑ d ∈ range (n + 1) ×ˢ range (m + 1) ×ˢ range (l + 1), G (X.node n d.1) (Y.node m d.2.1) (Z.node l d.2.2) * chebT i (chebNode n d.1) *
      chebT j (chebNode m d.2.1) * chebT k (chebNode l d.2.2)) * (chebWeight n i * chebWeight m j * chebWeight l k) =
    CS3.next G n m l X Y Z (i, j, k) 0 := by
  rw [CS3.next, zero_add]
  simp only [sum_product, range_eq_Ico]

theorem abs_next_le_3d {G : ℝ → ℝ → ℝ → ℝ} {X Y Z : Domain ℝ} (hX : X.Usual) (hY : Y.Usual) (hZ : Z.Usual) {n m l : Nat} {M : ℝ}
    (hG : ∀ x y z, X.Mem x → Y.Mem y → Z.Mem z → |G x y z| ≤ M) (i j k : Nat) : |CS3.next G n m l X Y Z (i, j, k) 0| ≤ 8 * M := by
  have hM : 0 ≤ M := (abs_nonneg _).trans (hG _ _ _ ((C37_nodes hX (n := n)).1 0 (Nat.zero_le n)).1 ((C37_nodes hY (n := m)).1 0 (Nat.zero_le m)).1
    ((C37_nodes hZ (n := l)).1 0 (Nat.zero_le l)).1)
  obtain ⟨w0, w⟩ := weight3_le n m l i j k
  rw [← next3_eq]
  refine weighted_le w0 w hM fun d hd => ?_
  obtain ⟨hz1, hz2⟩ := mem_product.1 hd
  obtain ⟨hz2, hz3⟩ := mem_product.1 hz2
  have hz1 : d.1 ≤ n := by have := mem_range.1 hz1; omega
  have hz2 : d.2.1 ≤ m := by have := mem_range.1 hz2; omega
  have hz3 : d.2.2 ≤ l := by have := mem_range.1 hz3; omega
  have := abs_mul_le_mul (abs_mul_le_mul (abs_mul_le_mul (hG _ _ _ ((C37_nodes hX).1 _ hz1).1 ((C37_nodes hY).1 _ hz2).1 ((C37_nodes hZ).1 _ hz3).1)
    (poly_node_le (i := i) hz1)) (poly_node_le (i := j) hz2)) (poly_node_le (i := k) hz3)
  rwa [mul_one, mul_one, mul_one] at this

theorem coeff_close_3d (hr : ToNearest rnd) {F G : ℝ → ℝ → ℝ → ℝ} {X Y Z : Domain ℝ} (hX : X.Usual) (hY : Y.Usual) (hZ : Z.Usual) {n m l : Nat}
    (hnm : (n + 1) * (m + 1) * (l + 1) ≤ 2 ^ 25) {ε φ Lx Ly Lz M : ℝ} (hT : PolyClose ε (max n (max m l)) TR) (hε : ε ≤ 1)
    (hF : Computes3 F G X Y Z φ Lx Ly Lz M) {t x u y w z : Nat → ℝ} (hx : NodesClose X n t x) (hy : NodesClose Y m u y) (hz : NodesClose Z l w z)
    {i j k : Nat} (hi : i ≤ n) (hj : j ≤ m) (hk : k ≤ l) :
    |CS3.nextR rnd TR F n m l t x u y w z (i, j, k) 0 - CS3.next G n m l X Y Z (i, j, k) 0| ≤
      coeffErr3 n m l (X.cond * Lx + Y.cond * Ly + Z.cond * Lz) ε φ M := by
  have hTx : PolyClose ε n TR := fun i hi => hT i (by omega)
  have hTy : PolyClose ε m TR := fun i hi => hT i (by omega)
  have hTz : PolyClose ε l TR := fun i hi => hT i (by omega)
  have hκx := Domain.cond_ge hX
  have hκy := Domain.cond_ge hY
  have hκz := Domain.cond_ge hZ
  obtain ⟨hLx, hLy, hLz⟩ := hF.rate
  have hx0 := (hx 0 (Nat.zero_le n)).2.2.1
  have hy0 := (hy 0 (Nat.zero_le m)).2.2.1
  have hz0 := (hz 0 (Nat.zero_le l)).2.2.1
  have hφ : 0 ≤ φ := (abs_nonneg _).trans (hF.close _ _ _ hx0 hy0 hz0)
  have hM : 0 ≤ M := (abs_nonneg _).trans (hF.bound _ _ _ hx0 hy0 hz0)
  have hε0 : 0 ≤ ε := (abs_nonneg _).trans (hTx 0 (Nat.zero_le n) 0 (by norm_num))
  obtain ⟨w0, hw⟩ := weight3_le n m l i j k
  have hlam : 0 ≤ X.cond * Lx + Y.cond * Ly + Z.cond * Lz := by
    have := mul_nonneg (show 0 ≤ X.cond by linarith) hLx
    have := mul_nonneg (show 0 ≤ Y.cond by linarith) hLy
    have := mul_nonneg (show 0 ≤ Z.cond by linarith) hLz
    linarith
  have key := near_weighted (CS3.nextR_near (TR := TR) (F := F) hr (by omega) t x u y w z i j k)
    (q := fun d => G (X.node n d.1) (Y.node m d.2.1) (Z.node l d.2.2) * chebT i (chebNode n d.1) * chebT j (chebNode m d.2.1) * chebT k (chebNode l d.2.2))
    (W := 8) (E := 8 * (φ + 16 * (X.cond * Lx + Y.cond * Ly + Z.cond * Lz) / 2 ^ 53) + 4 * M * (3 * ε + 21 * (n ^ 2 + m ^ 2 + l ^ 2) / 2 ^ 53))
    (P := 8 * (M + φ)) w0 hw (by positivity) (by positivity) (fun d hd => ?_) (fun d hd => ?_)
  · have hg : gam ((n + 1) * (m + 1) * (l + 1) + 6) ≤ ((n + 1) * (m + 1) * (l + 1) + 7) / 2 ^ 53 := by
      have := gam_le (k := (n + 1) * (m + 1) * (l + 1) + 6) (by omega)
      push_cast at this
      unfold uround at this
      calc _ ≤ _ := this
        _ = _ := by ring
    rw [next3_eq] at key
    refine key.trans ?_
    have := mul_le_mul_of_nonneg_right hg (show 0 ≤ 8 * (8 * (M + φ)) by linarith)
    unfold coeffErr3
    linarith
  all_goals
    obtain ⟨hz1, hz2⟩ := mem_product.1 hd
    obtain ⟨hz2, hz3⟩ := mem_product.1 hz2
    have hz1 : d.1 ≤ n := by have := mem_range.1 hz1; omega
    have hz2 : d.2.1 ≤ m := by have := mem_range.1 hz2; omega
    have hz3 : d.2.2 ≤ l := by have := mem_range.1 hz3; omega
    obtain ⟨a1, a2, a3⟩ := poly_at_node hTx hε hx hi hz1
    obtain ⟨b1, b2, b3⟩ := poly_at_node hTy hε hy hj hz2
    obtain ⟨o1, o2, o3⟩ := poly_at_node hTz hε hz hk hz3
    obtain ⟨c1, c2, c3⟩ := node_dist hX hx hz1 hLx
    obtain ⟨d1, d2, d3⟩ := node_dist hY hy hz2 hLy
    obtain ⟨k1, k2, k3⟩ := node_dist hZ hz hz3 hLz
    have f1 := hF.close _ _ _ c1 d1 k1
  · have f2 := hF.lipschitz _ _ _ _ _ _ c1 c2 d1 d2 k1 k2
    have f3 : |F (x d.1) (y d.2.1) (z d.2.2) - G (X.node n d.1) (Y.node m d.2.1) (Z.node l d.2.2)| ≤
        φ + 16 * (X.cond * Lx + Y.cond * Ly + Z.cond * Lz) / 2 ^ 53 := by
      have := abs_add_le (F (x d.1) (y d.2.1) (z d.2.2) - G (x d.1) (y d.2.1) (z d.2.2))
        (G (x d.1) (y d.2.1) (z d.2.2) - G (X.node n d.1) (Y.node m d.2.1) (Z.node l d.2.2))
      rw [sub_add_sub_cancel] at this
      rw [show 16 * (X.cond * Lx + Y.cond * Ly + Z.cond * Lz) / 2 ^ 53 =
        16 * (X.cond * Lx) / 2 ^ 53 + 16 * (Y.cond * Ly) / 2 ^ 53 + 16 * (Z.cond * Lz) / 2 ^ 53 by ring]
      linarith
    have g1 := hF.bound _ _ _ c2 d2 k2
    have h1 := prod_close f3 a3 g1 a1
    have h2 := prod_close h1 b3 (abs_mul_le_mul g1 a2) b1
    have h3 := prod_close h2 o3 (abs_mul_le_mul (abs_mul_le_mul g1 a2) b2) o1
    refine h3.trans ?_
    have q1 : 0 ≤ M * (ε + 21 * (m : ℝ) ^ 2 / 2 ^ 53) := by positivity
    have q2 : 0 ≤ M * (ε + 21 * (l : ℝ) ^ 2 / 2 ^ 53) := by positivity
    rw [show 4 * M * (3 * ε + 21 * ((n : ℝ) ^ 2 + m ^ 2 + l ^ 2) / 2 ^ 53) = 4 * (M * (ε + 21 * (n : ℝ) ^ 2 / 2 ^ 53)) +
      4 * (M * (ε + 21 * (m : ℝ) ^ 2 / 2 ^ 53)) + 4 * (M * (ε + 21 * (l : ℝ) ^ 2 / 2 ^ 53)) by ring]
    linarith
  · have g1 := hF.bound _ _ _ c1 d1 k1
    have g2 : |F (x d.1) (y d.2.1) (z d.2.2)| ≤ M + φ := by
      have := abs_add_le (F (x d.1) (y d.2.1) (z d.2.2) - G (x d.1) (y d.2.1) (z d.2.2)) (G (x d.1) (y d.2.1) (z d.2.2))
      rw [sub_add_cancel] at this
      linarith
    refine (abs_mul_le_mul (abs_mul_le_mul (abs_mul_le_mul g2 a1) b1) o1).trans (le_of_eq ?_)
    ring

/-- C135, three variables. -/
theorem C135_error_3d (hr : ToNearest rnd) (hc : CosClose cosR) (B : Build) {F G : ℝ → ℝ → ℝ → ℝ} {n m l : Nat} {s s₀ : CS3 ℝ} {X Y Z : Domain ℝ}
    (hs : Fresh3 F n m l s X Y Z) (hs₀ : Fresh3 G n m l s₀ X Y Z) (hX : X.Usual) (hY : Y.Usual) (hZ : Z.Usual)
    (hn : X.cond * ((n : ℝ) + 1) ^ 2 ≤ 2 ^ 40) (hm : Y.cond * ((m : ℝ) + 1) ^ 2 ≤ 2 ^ 40) (hl : Z.cond * ((l : ℝ) + 1) ^ 2 ≤ 2 ^ 40)
    (hnm : (n + 1) * (m + 1) * (l + 1) ≤ 2 ^ 25) {ε φ Lx Ly Lz M : ℝ} (hT : PolyClose ε (max n (max m l)) TR) (hε : ε ≤ 1)
    (hF : Computes3 F G X Y Z φ Lx Ly Lz M) :
    ∃ s' s₀', s.computeAijkR rnd cosR TR B = .ok s' ∧ s₀.computeAijk B = .ok s₀' ∧ ∀ x y z, X.Mem x → Y.Mem y → Z.Mem z →
      ∃ v v₀, s'.evaluateR rnd B x y z = .ok v ∧ s₀'.evaluate B x y z = .ok v₀ ∧
        |v - v₀| ≤ seriesErr3 n m l X.cond Y.cond Z.cond (X.cond * Lx + Y.cond * Ly + Z.cond * Lz) ε φ M := by
  obtain ⟨sx, sy, sz, rfl, rfl, rfl, h⟩ := hs.holds
  obtain ⟨sx₀, sy₀, sz₀, ex₀, ey₀, ez₀, h₀⟩ := hs₀.holds
  obtain ⟨t, x, hx, hx'⟩ := abscissaeR_ok hr hc hX hn
  obtain ⟨u, y, hy, hy'⟩ := abscissaeR_ok hr hc hY hm
  obtain ⟨w, z, hz, hz'⟩ := abscissaeR_ok hr hc hZ hl
  obtain ⟨s', h1, h2⟩ := CS3.computeAijkR_ok (TR := TR) B h hx hy hz
  obtain ⟨s₀', h3, h4⟩ := CS3.computeAijk_ok B h₀
  refine ⟨s', s₀', h1, h3, fun p q o hp hq ho => ?_⟩
  obtain ⟨-, b2, b3, b4, b5, b6, b7, e0, b8, b9⟩ := h2
  obtain ⟨v, v1, v2⟩ := C132_error_3d hr B (s := s') (by rw [b8, b4]; simp) (fun A hA => by
      rw [b8] at hA
      obtain ⟨c, -, rfl⟩ := List.mem_map.1 hA
      exact ⟨by rw [b2], by rw [b3]⟩) (by rw [b5]; exact hX) (by rw [b6]; exact hY) (by rw [b7]; exact hZ) (x := p) (y := q) (z := o)
    (by rw [b5]; exact hp) (by rw [b6]; exact hq) (by rw [b7]; exact ho)
  refine ⟨v, _, v1, CS3.evaluate_ok B h4 (by rw [ex₀]; exact (Domain.mem_unit hX hp).1) (by rw [ey₀]; exact (Domain.mem_unit hY hq).1)
    (by rw [ez₀]; exact (Domain.mem_unit hZ ho).1), ?_⟩
  rw [ex₀, ey₀, ez₀]
  rw [b2, b3, b4, b5, b6, b7] at v2
  have hco : ∀ i j k, i ≤ n → j ≤ m → k ≤ l → |(s'.m_aijk[k]?.getD (Mat.zero 0 0)).entry i j - CS3.next G n m l sx.dom sy.dom sz.dom (i, j, k) 0| ≤
      coeffErr3 n m l (sx.dom.cond * Lx + sy.dom.cond * Ly + sz.dom.cond * Lz) ε φ M := fun i j k hi hj hk => by
    have hget : (s'.m_aijk[k]?.getD (Mat.zero 0 0)).entry i j = e0 (i, j, k) := by
      rw [b8, List.getElem?_map, List.getElem?_range (by omega)]
      rfl
    rw [hget, b9 i j k (by omega) (by omega) (by omega)]
    exact coeff_close_3d hr hX hY hZ hnm hT hε hF hx' hy' hz' hi hj hk
  have hEx := chebErr_nonneg n (Domain.cond_ge hX)
  have hEy := chebErr_nonneg m (Domain.cond_ge hY)
  have hEz := chebErr_nonneg l (Domain.cond_ge hZ)
  have hE : 0 ≤ (1 + chebErr n sx.dom.cond) * (1 + chebErr m sy.dom.cond) * (1 + chebErr l sz.dom.cond) - 1 := by
    have h5 : 1 ≤ (1 + chebErr n sx.dom.cond) * (1 + chebErr m sy.dom.cond) := by nlinarith
    nlinarith
  refine series_total hE v2 ((cheb3_sub_le (unit_le hX hp) (unit_le hY hq) (unit_le hZ ho) _ _ _ _ _).trans ?_) ?_
  · rw [mul_assoc, mul_assoc]
    exact sum_range_le_const fun i hi => sum_range_le_const fun j hj => sum_range_le_const fun k hk => hco i j k hi hj hk
  · rw [mul_assoc, mul_assoc]
    refine sum_range_le_const fun i hi => sum_range_le_const fun j hj => sum_range_le_const fun k hk => ?_
    have e1 := hco i j k hi hj hk
    have e2 := abs_next_le_3d hX hY hZ (n := n) (m := m) (l := l) hF.bound i j k
    have := abs_add_le ((s'.m_aijk[k]?.getD (Mat.zero 0 0)).entry i j - CS3.next G n m l sx.dom sy.dom sz.dom (i, j, k) 0)
      (CS3.next G n m l sx.dom sy.dom sz.dom (i, j, k) 0)
    rw [sub_add_cancel] at this
    linarith

/-! ## Accuracy -/

theorem Spec.Fresh2.other {F : ℝ → ℝ → ℝ} {n m : Nat} {s : CS2 ℝ} {X Y : Domain ℝ} (h : Fresh2 F n m s X Y) (G : ℝ → ℝ → ℝ) : ∃ s₀, Fresh2 G n m s₀ X Y := by
  cases h
  all_goals exact ⟨_, by constructor⟩

theorem Spec.Fresh3.other {F : ℝ → ℝ → ℝ → ℝ} {n m l : Nat} {s : CS3 ℝ} {X Y Z : Domain ℝ} (h : Fresh3 F n m l s X Y Z) (G : ℝ → ℝ → ℝ → ℝ) :
    ∃ s₀, Fresh3 G n m l s₀ X Y Z := by
  cases h
  all_goals exact ⟨_, by constructor⟩

/-- C135, two variables: the error of the value computed in double, for a function with bounded derivatives. -/
theorem C135_accuracy_2d (hr : ToNearest rnd) (hc : CosClose cosR) (B : Build) {F G : ℝ → ℝ → ℝ} {n m : Nat} {s : CS2 ℝ} {X Y : Domain ℝ}
    (hs : Fresh2 F n m s X Y) (hX : X.Usual) (hY : Y.Usual) (hn : X.cond * ((n : ℝ) + 1) ^ 2 ≤ 2 ^ 40) (hm : Y.cond * ((m : ℝ) + 1) ^ 2 ≤ 2 ^ 40)
    (hnm : (n + 1) * (m + 1) ≤ 2 ^ 25)
    {ε φ Lx Ly M Dx Dy : ℝ} (hT : PolyClose ε (max n m) TR) (hε : ε ≤ 1) (hF : Computes2 F G X Y φ Lx Ly M)
    (hGx : ∀ y, Y.Mem y → DerivBoundOn (n + 1) (fun x => G x y) X Dx)
    (hGy : ∀ x, X.Mem x → DerivBoundOn (m + 1) (fun y => G x y) Y Dy) :
    ∃ s', s.computeAijR rnd cosR TR B = .ok s' ∧ ∀ x y, X.Mem x → Y.Mem y → ∃ v, s'.evaluateR rnd B x y = .ok v ∧
      |v - G x y| ≤ Dx / (2 ^ n * (n + 1).factorial) + (2 * n + 1) * (Dy / (2 ^ m * (m + 1).factorial)) + seriesErr2 n m X.cond Y.cond (X.cond * Lx + Y.cond * Ly) ε φ M := by
  obtain ⟨s₀, hs₀⟩ := hs.other G
  obtain ⟨s', s₀', h1, h2, h3⟩ := C135_error_2d (TR := TR) hr hc B hs hs₀ hX hY hn hm hnm hT hε hF
  obtain ⟨s₁, h4, h5⟩ := C112_error_2d B hs₀ hX hY hGx hGy
  rw [h2] at h4
  injection h4 with h4
  refine ⟨s', h1, fun x y hx hy => ?_⟩
  obtain ⟨v, v₀, h6, h7, h8⟩ := h3 x y hx hy
  obtain ⟨v₁, h9, h10⟩ := h5 x y hx hy
  rw [← h4, h7] at h9
  injection h9 with h9
  refine ⟨v, h6, ?_⟩
  rw [← h9] at h10
  have := abs_add_le (v - v₀) (v₀ - G x y)
  rw [sub_add_sub_cancel] at this
  linarith

/-- C135, two variables: the same for a function with a Chebyshev expansion of coefficients `a`. -/
theorem C135_spectral_2d (hr : ToNearest rnd) (hc : CosClose cosR) (B : Build) {F G : ℝ → ℝ → ℝ} {n m : Nat} {s : CS2 ℝ} {X Y : Domain ℝ}
    (hs : Fresh2 F n m s X Y) (hX : X.Usual) (hY : Y.Usual) (hn : X.cond * ((n : ℝ) + 1) ^ 2 ≤ 2 ^ 40) (hm : Y.cond * ((m : ℝ) + 1) ^ 2 ≤ 2 ^ 40)
    (hnm : (n + 1) * (m + 1) ≤ 2 ^ 25)
    {ε φ Lx Ly M  : ℝ} (hT : PolyClose ε (max n m) TR) (hε : ε ≤ 1) (hF : Computes2 F G X Y φ Lx Ly M)
    {a : ℕ × ℕ → ℝ} (hG : Expansion2 a G X Y) :
    ∃ s', s.computeAijR rnd cosR TR B = .ok s' ∧ ∀ x y, X.Mem x → Y.Mem y → ∃ v, s'.evaluateR rnd B x y = .ok v ∧
      |v - G x y| ≤ (2 * ∑' k : ℕ × ℕ, if k.1 ≤ n ∧ k.2 ≤ m then 0 else |a k|) + seriesErr2 n m X.cond Y.cond (X.cond * Lx + Y.cond * Ly) ε φ M := by
  obtain ⟨s₀, hs₀⟩ := hs.other G
  obtain ⟨s', s₀', h1, h2, h3⟩ := C135_error_2d (TR := TR) hr hc B hs hs₀ hX hY hn hm hnm hT hε hF
  obtain ⟨s₁, h4, h5⟩ := C134_error_2d B hs₀ hX hY hG
  rw [h2] at h4
  injection h4 with h4
  refine ⟨s', h1, fun x y hx hy => ?_⟩
  obtain ⟨v, v₀, h6, h7, h8⟩ := h3 x y hx hy
  obtain ⟨v₁, h9, h10⟩ := h5 x y hx hy
  rw [← h4, h7] at h9
  injection h9 with h9
  refine ⟨v, h6, ?_⟩
  rw [← h9] at h10
  have := abs_add_le (v - v₀) (v₀ - G x y)
  rw [sub_add_sub_cancel] at this
  linarith

/-- C135, three variables: the error of the value computed in double, for a function with bounded derivatives. -/
theorem C135_accuracy_3d (hr : ToNearest rnd) (hc : CosClose cosR) (B : Build) {F G : ℝ → ℝ → ℝ → ℝ} {n m l : Nat} {s : CS3 ℝ} {X Y Z : Domain ℝ}
    (hs : Fresh3 F n m l s X Y Z) (hX : X.Usual) (hY : Y.Usual) (hZ : Z.Usual) (hn : X.cond * ((n : ℝ) + 1) ^ 2 ≤ 2 ^ 40) (hm : Y.cond * ((m : ℝ) + 1) ^ 2 ≤ 2 ^ 40)
    (hl : Z.cond * ((l : ℝ) + 1) ^ 2 ≤ 2 ^ 40) (hnm : (n + 1) * (m + 1) * (l + 1) ≤ 2 ^ 25)
    {ε φ Lx Ly Lz M Dx Dy Dz : ℝ} (hT : PolyClose ε (max n (max m l)) TR) (hε : ε ≤ 1) (hF : Computes3 F G X Y Z φ Lx Ly Lz M)
    (hGx : ∀ y z, Y.Mem y → Z.Mem z → DerivBoundOn (n + 1) (fun x => G x y z) X Dx)
    (hGy : ∀ x z, X.Mem x → Z.Mem z → DerivBoundOn (m + 1) (fun y => G x y z) Y Dy)
    (hGz : ∀ x y, X.Mem x → Y.Mem y → DerivBoundOn (l + 1) (fun z => G x y z) Z Dz) :
    ∃ s', s.computeAijkR rnd cosR TR B = .ok s' ∧ ∀ x y z, X.Mem x → Y.Mem y → Z.Mem z → ∃ v, s'.evaluateR rnd B x y z = .ok v ∧
      |v - G x y z| ≤ (Dz / (2 ^ l * (l + 1).factorial) +
        (2 * l + 1) * (Dx / (2 ^ n * (n + 1).factorial) + (2 * n + 1) * (Dy / (2 ^ m * (m + 1).factorial)))) + seriesErr3 n m l X.cond Y.cond Z.cond (X.cond * Lx + Y.cond * Ly + Z.cond * Lz) ε φ M := by
  obtain ⟨s₀, hs₀⟩ := hs.other G
  obtain ⟨s', s₀', h1, h2, h3⟩ := C135_error_3d (TR := TR) hr hc B hs hs₀ hX hY hZ hn hm hl hnm hT hε hF
  obtain ⟨s₁, h4, h5⟩ := C112_error_3d B hs₀ hX hY hZ hGx hGy hGz
  rw [h2] at h4
  injection h4 with h4
  refine ⟨s', h1, fun x y z hx hy hz => ?_⟩
  obtain ⟨v, v₀, h6, h7, h8⟩ := h3 x y z hx hy hz
  obtain ⟨v₁, h9, h10⟩ := h5 x y z hx hy hz
  rw [← h4, h7] at h9
  injection h9 with h9
  refine ⟨v, h6, ?_⟩
  rw [← h9] at h10
  have := abs_add_le (v - v₀) (v₀ - G x y z)
  rw [sub_add_sub_cancel] at this
  linarith

/-- C135, three variables: the same for a function with a Chebyshev expansion of coefficients `a`. -/
theorem C135_spectral_3d (hr : ToNearest rnd) (hc : CosClose cosR) (B : Build) {F G : ℝ → ℝ → ℝ → ℝ} {n m l : Nat} {s : CS3 ℝ} {X Y Z : Domain ℝ}
    (hs : Fresh3 F n m l s X Y Z) (hX : X.Usual) (hY : Y.Usual) (hZ : Z.Usual) (hn : X.cond * ((n : ℝ) + 1) ^ 2 ≤ 2 ^ 40) (hm : Y.cond * ((m : ℝ) + 1) ^ 2 ≤ 2 ^ 40)
    (hl : Z.cond * ((l : ℝ) + 1) ^ 2 ≤ 2 ^ 40) (hnm : (n + 1) * (m + 1) * (l + 1) ≤ 2 ^ 25)
    {ε φ Lx Ly Lz M  : ℝ} (hT : PolyClose ε (max n (max m l)) TR) (hε : ε ≤ 1) (hF : Computes3 F G X Y Z φ Lx Ly Lz M)
    {a : ℕ × ℕ × ℕ → ℝ} (hG : Expansion3 a G X Y Z) :
    ∃ s', s.computeAijkR rnd cosR TR B = .ok s' ∧ ∀ x y z, X.Mem x → Y.Mem y → Z.Mem z → ∃ v, s'.evaluateR rnd B x y z = .ok v ∧
      |v - G x y z| ≤ (2 * ∑' k : ℕ × ℕ × ℕ, if k.1 ≤ n ∧ k.2.1 ≤ m ∧ k.2.2 ≤ l then 0 else |a k|) + seriesErr3 n m l X.cond Y.cond Z.cond (X.cond * Lx + Y.cond * Ly + Z.cond * Lz) ε φ M := by
  obtain ⟨s₀, hs₀⟩ := hs.other G
  obtain ⟨s', s₀', h1, h2, h3⟩ := C135_error_3d (TR := TR) hr hc B hs hs₀ hX hY hZ hn hm hl hnm hT hε hF
  obtain ⟨s₁, h4, h5⟩ := C134_error_3d B hs₀ hX hY hZ hG
  rw [h2] at h4
  injection h4 with h4
  refine ⟨s', h1, fun x y z hx hy hz => ?_⟩
  obtain ⟨v, v₀, h6, h7, h8⟩ := h3 x y z hx hy hz
  obtain ⟨v₁, h9, h10⟩ := h5 x y z hx hy hz
  rw [← h4, h7] at h9
  injection h9 with h9
  refine ⟨v, h6, ?_⟩
  rw [← h9] at h10
  have := abs_add_le (v - v₀) (v₀ - G x y z)
  rw [sub_add_sub_cancel] at this
  linarith

theorem sin_shift_derivs (k : Nat) (c : ℝ) : DerivBoundOn k (fun x => Real.sin (x + c)) (.segment 0 2) 1 := by
  refine ⟨fun u => Real.sin (u + (1 + c)), fun x _ => ?_, fun j u => Real.sin (u + (1 + c) + j * (Real.pi / 2)), fun u _ => by simp, fun j _ u _ => ?_,
    fun u _ => Real.abs_sin_le_one _⟩
  · show Real.sin (x + c) = Real.sin ((2 * x - 0 - 2) / (2 - 0) + (1 + c))
    congr 1
    ring
  · have h := (((hasDerivAt_id u).add_const (1 + c)).add_const (j * (Real.pi / 2))).sin
    have e : Real.sin (u + (1 + c) + ((j + 1 : Nat) : ℝ) * (Real.pi / 2)) = Real.cos (u + (1 + c) + j * (Real.pi / 2)) * 1 := by
      rw [mul_one, ← Real.sin_add_pi_div_two]
      congr 1
      push_cast
      ring
    show HasDerivWithinAt _ (Real.sin (u + (1 + c) + ((j + 1 : Nat) : ℝ) * (Real.pi / 2))) _ u
    rw [e]
    exact h.hasDerivWithinAt

theorem unit_sub_segment (x x' : ℝ) : (Domain.segment (0 : ℝ) 2).unit x - (Domain.segment (0 : ℝ) 2).unit x' = x - x' := by
  show (2 * x - 0 - 2) / (2 - 0) - (2 * x' - 0 - 2) / (2 - 0) = x - x'
  ring

theorem sin_computes_2d : Computes2 (fun x y => roundNearest (Real.sin (x + y))) (fun x y => Real.sin (x + y)) (.segment 0 2) (.segment 0 2)
    (1 / 2 ^ 53) 1 1 1 where
  rate := ⟨zero_le_one, zero_le_one⟩
  close x y _ _ := roundNearest_close (Real.abs_sin_le_one _)
  lipschitz x x' y y' _ _ _ _ := by
    rw [unit_sub_segment, unit_sub_segment, one_mul, one_mul]
    refine (Real.abs_sin_sub_sin_le _ _).trans ?_
    rw [show x + y - (x' + y') = (x - x') + (y - y') by ring]
    exact abs_add_le _ _
  bound x y _ _ := Real.abs_sin_le_one _

theorem sin_computes_3d : Computes3 (fun x y z => roundNearest (Real.sin (x + y + z))) (fun x y z => Real.sin (x + y + z)) (.segment 0 2) (.segment 0 2)
    (.segment 0 2) (1 / 2 ^ 53) 1 1 1 1 where
  rate := ⟨zero_le_one, zero_le_one, zero_le_one⟩
  close x y z _ _ _ := roundNearest_close (Real.abs_sin_le_one _)
  lipschitz x x' y y' z z' _ _ _ _ _ _ := by
    rw [unit_sub_segment, unit_sub_segment, unit_sub_segment, one_mul, one_mul, one_mul]
    refine (Real.abs_sin_sub_sin_le _ _).trans ?_
    rw [show x + y + z - (x' + y' + z') = (x - x') + (y - y') + (z - z') by ring]
    exact (abs_add_le _ _).trans (add_le_add (abs_add_le _ _) le_rfl)
  bound x y z _ _ _ := Real.abs_sin_le_one _

/-- The sine of the sum of two variables of `[0, 2]` at orders 12 and 12, right to `10^(-8)`. -/
example (B : Build) : ∃ s', (CS2.closed (fun x y => roundNearest (Real.sin (x + y))) 0 2 0 2 12 12).computeAijR roundNearest
      (fun t => roundNearest (Real.cos t)) (fun i t => roundNearest ((Chebyshev.T ℝ i).eval t)) B = .ok s' ∧ ∀ x y, 0 ≤ x ∧ x ≤ 2 → 0 ≤ y ∧ y ≤ 2 →
      ∃ v, s'.evaluateR roundNearest B x y = .ok v ∧ |v - Real.sin (x + y)| ≤ 1 / 10 ^ 8 := by
  have hκ : (Domain.segment (0 : ℝ) 2).cond = 4 := by
    norm_num [Domain.cond]
  obtain ⟨s', h1, h2⟩ := C135_accuracy_2d (n := 12) (m := 12) roundNearest_toNearest cosClose_round B (Fresh2.closed 0 2 0 2)
    (by norm_num [Domain.Usual]) (by norm_num [Domain.Usual]) (by rw [hκ]; norm_num) (by rw [hκ]; norm_num) (by norm_num) (polyClose_round _) (by norm_num)
    sin_computes_2d (fun y _ => sin_shift_derivs 13 y) (fun x _ => by simpa only [add_comm] using sin_shift_derivs 13 x)
  refine ⟨s', h1, fun x y hx hy => ?_⟩
  obtain ⟨v, h5, h6⟩ := h2 x y hx hy
  refine ⟨v, h5, h6.trans ?_⟩
  rw [hκ]
  norm_num [seriesErr2, coeffErr2, chebErr, Nat.factorial]

/-- The sine of the sum of three variables of `[0, 2]` at orders 12, right to `10^(-5)`. -/
example (B : Build) : ∃ s', (CS3.closed (fun x y z => roundNearest (Real.sin (x + y + z))) 0 2 0 2 0 2 12 12 12).computeAijkR roundNearest
      (fun t => roundNearest (Real.cos t)) (fun i t => roundNearest ((Chebyshev.T ℝ i).eval t)) B = .ok s' ∧
      ∀ x y z, 0 ≤ x ∧ x ≤ 2 → 0 ≤ y ∧ y ≤ 2 → 0 ≤ z ∧ z ≤ 2 →
      ∃ v, s'.evaluateR roundNearest B x y z = .ok v ∧ |v - Real.sin (x + y + z)| ≤ 1 / 10 ^ 5 := by
  have hκ : (Domain.segment (0 : ℝ) 2).cond = 4 := by
    norm_num [Domain.cond]
  obtain ⟨s', h1, h2⟩ := C135_accuracy_3d (n := 12) (m := 12) (l := 12) roundNearest_toNearest cosClose_round B (Fresh3.closed 0 2 0 2 0 2)
    (by norm_num [Domain.Usual]) (by norm_num [Domain.Usual]) (by norm_num [Domain.Usual]) (by rw [hκ]; norm_num) (by rw [hκ]; norm_num)
    (by rw [hκ]; norm_num) (by norm_num) (polyClose_round _) (by norm_num)
    sin_computes_3d (fun y z _ _ => by simpa only [add_assoc] using sin_shift_derivs 13 (y + z))
    (fun x z _ _ => by simpa only [add_comm, add_left_comm] using sin_shift_derivs 13 (x + z)) (fun x y _ _ => by simpa only [add_comm] using sin_shift_derivs 13 (x + y))
  refine ⟨s', h1, fun x y z hx hy hz => ?_⟩
  obtain ⟨v, h5, h6⟩ := h2 x y z hx hy hz
  refine ⟨v, h5, h6.trans ?_⟩
  rw [hκ]
  norm_num [seriesErr3, coeffErr3, chebErr, Nat.factorial]

end MU
