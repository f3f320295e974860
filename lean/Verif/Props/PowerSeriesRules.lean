import Verif.Props.PowerSeries
import Mathlib.LinearAlgebra.Lagrange
import Mathlib.Tactic.IntervalCases
import Mathlib.Algebra.BigOperators.NatAntidiagonal
import Mathlib.Data.Real.Basic

/-!
# C211: rules of the power series
-/

set_option linter.unusedSectionVars false

namespace MU
open Spec Finset

/-! ## Two calls that return the derivative of the same function -/

theorem isDerivAt_unique {F F' : ℝ → Res ℝ} {D D' : Res ℝ} {x : ℝ} (h : IsDerivAt F D x) (h' : IsDerivAt F' D' x) (e : ∀ᶠ t in nhds x, F t = F' t) : D = D' := by
  obtain ⟨f, d, h1, rfl, h2⟩ := h
  obtain ⟨f', d', h1', rfl, h2'⟩ := h'
  have e' : f' =ᶠ[nhds x] f := by
    filter_upwards [h1, h1', e] with t a b c
    rw [a, b] at c
    exact (Res.ok.inj c).symm
  rw [h2.unique (h2'.congr_of_eventuallyEq e'.symm)]

theorem isDerivAt_linear {F G H : ℝ → Res ℝ} {D D' D'' : Res ℝ} {x α β : ℝ} (h : IsDerivAt F D x) (h' : IsDerivAt G D' x) (h'' : IsDerivAt H D'' x)
    (e : ∀ᶠ t in nhds x, ∃ p q, F t = .ok p ∧ G t = .ok q ∧ H t = .ok (α * p + β * q)) : ∃ p q, D = .ok p ∧ D' = .ok q ∧ D'' = .ok (α * p + β * q) := by
  obtain ⟨f, d, h1, rfl, h2⟩ := h
  obtain ⟨g, d', h1', rfl, h2'⟩ := h'
  refine ⟨d, d', rfl, rfl, isDerivAt_unique h'' ⟨fun t => α * f t + β * g t, α * d + β * d', ?_, rfl, (h2.const_mul α).add (h2'.const_mul β)⟩ (.of_forall fun _ => rfl)⟩
  filter_upwards [h1, h1', e] with t a b ⟨p, q, c1, c2, c3⟩
  rw [a] at c1
  rw [b] at c2
  rw [c3, Res.ok.inj c1, Res.ok.inj c2]

theorem Spec.Domain.Defined.eventually {X : Domain ℝ} {x : ℝ} (h : X.Defined x) : ∀ᶠ t in nhds x, X.Defined t := by
  cases X with
  | segment a b => exact .of_forall fun _ => h
  | halfLine a => exact isOpen_ne.mem_nhds h

/-! ## Linearity -/

theorem poly1_linear (n : Nat) (b c d : Nat → ℝ) (α β u : ℝ) (h : ∀ i, i < n → d i = α * b i + β * c i) : poly1 n d u = α * poly1 n b u + β * poly1 n c u := by
  unfold poly1
  rw [mul_sum, mul_sum, ← sum_add_distrib]
  exact sum_congr rfl fun i hi => by rw [h i (mem_range.1 hi)]; ring

/-- C211: values and derivatives are linear in the coefficients: one variable. -/
theorem C211_linear_1d (B : Build) {b c d : List ℝ} (hb : b ≠ []) (hc : c.length = b.length) (hd : d.length = b.length) (α β : ℝ)
    (e : ∀ i, i < b.length → d.getD i 0 = α * b.getD i 0 + β * c.getD i 0) {s t w : PS1 ℝ} {X : Domain ℝ} (hs : Built1 b s X) (ht : Built1 c t X) (hw : Built1 d w X) {x : ℝ}
    (hx : X.Defined x) :
    (∃ p q, s.evaluate B x = .ok p ∧ t.evaluate B x = .ok q ∧ w.evaluate B x = .ok (α * p + β * q)) ∧
    ∃ p q, s.evaluateDerivativeX B x = .ok p ∧ t.evaluateDerivativeX B x = .ok q ∧ w.evaluateDerivativeX B x = .ok (α * p + β * q) := by
  have hb0 : b.length ≠ 0 := fun h => hb (List.length_eq_zero_iff.1 h)
  have hc0 : c ≠ [] := fun h => hb0 (by rw [← hc, h]; rfl)
  have hd0 : d ≠ [] := fun h => hb0 (by rw [← hd, h]; rfl)
  have key : ∀ y, X.Defined y → ∃ p q, s.evaluate B y = .ok p ∧ t.evaluate B y = .ok q ∧ w.evaluate B y = .ok (α * p + β * q) := fun y hy =>
    ⟨_, _, C29_evaluate_1d B hb hs hy, C29_evaluate_1d B hc0 ht hy, by rw [C29_evaluate_1d B hd0 hw hy, hc, hd, poly1_linear _ _ _ _ α β _ e]⟩
  exact ⟨key x hx, isDerivAt_linear (C30_derivative_1d B hb hs hx) (C30_derivative_1d B hc0 ht hx) (C30_derivative_1d B hd0 hw hx) (hx.eventually.mono key)⟩

/-- C211: two variables. -/
theorem C211_linear_2d (B : Build) {b c d : Mat ℝ} {n m : Nat} (hn : n ≠ 0) (hm : m ≠ 0) (hb : b.rows = n ∧ b.cols = m) (hc : c.rows = n ∧ c.cols = m) (hd : d.rows = n ∧ d.cols = m) (α β : ℝ)
    (e : ∀ i j, i < n → j < m → d.entry i j = α * b.entry i j + β * c.entry i j) {s t w : PS2 ℝ} {X Y : Domain ℝ} (hs : Built2 b s X Y) (ht : Built2 c t X Y) (hw : Built2 d w X Y)
    {x y : ℝ} (hx : X.Defined x) (hy : Y.Defined y) :
    (∃ p q, s.evaluate B x y = .ok p ∧ t.evaluate B x y = .ok q ∧ w.evaluate B x y = .ok (α * p + β * q)) ∧
    (∃ p q, s.evaluateDerivativeX B x y = .ok p ∧ t.evaluateDerivativeX B x y = .ok q ∧ w.evaluateDerivativeX B x y = .ok (α * p + β * q)) ∧
    ∃ p q, s.evaluateDerivativeY B x y = .ok p ∧ t.evaluateDerivativeY B x y = .ok q ∧ w.evaluateDerivativeY B x y = .ok (α * p + β * q) := by
  obtain ⟨rfl, rfl⟩ := hb
  have hcr : c.rows ≠ 0 := hc.1 ▸ hn
  have hcc : c.cols ≠ 0 := hc.2 ▸ hm
  have hdr : d.rows ≠ 0 := hd.1 ▸ hn
  have hdc : d.cols ≠ 0 := hd.2 ▸ hm
  have key : ∀ x y, X.Defined x → Y.Defined y → ∃ p q, s.evaluate B x y = .ok p ∧ t.evaluate B x y = .ok q ∧ w.evaluate B x y = .ok (α * p + β * q) := fun x y hx hy =>
    ⟨_, _, C29_evaluate_2d B hn hm hs hx hy, C29_evaluate_2d B hcr hcc ht hx hy, by
      rw [C29_evaluate_2d B hdr hdc hw hx hy, hc.1, hc.2, hd.1, hd.2, ← poly2_eq, ← poly2_eq, ← poly2_eq]
      exact congrArg _ (poly1_linear _ _ _ _ α β _ fun i hi => poly1_linear _ _ _ _ α β _ fun j hj => e i j hi hj)⟩
  have a := C30_derivative_2d B hn hm hs hx hy
  have a' := C30_derivative_2d B hcr hcc ht hx hy
  have a'' := C30_derivative_2d B hdr hdc hw hx hy
  exact ⟨key x y hx hy, isDerivAt_linear a.1 a'.1 a''.1 (hx.eventually.mono fun t h => key t y h hy), isDerivAt_linear a.2 a'.2 a''.2 (hy.eventually.mono fun t h => key x t hx h)⟩

/-- C211: three variables. -/
theorem C211_linear_3d (B : Build) {b c d : List (Mat ℝ)} {n m l : Nat} {eb ec ed : Nat → Nat → Nat → ℝ} (hb : Cube b n m l eb) (hc : Cube c n m l ec) (hd : Cube d n m l ed) (α β : ℝ)
    (e : ∀ i j k, i < n → j < m → k < l → ed i j k = α * eb i j k + β * ec i j k) {s t w : PS3 ℝ} {X Y Z : Domain ℝ} (hs : Built3 b s X Y Z) (ht : Built3 c t X Y Z) (hw : Built3 d w X Y Z)
    {x y z : ℝ} (hx : X.Defined x) (hy : Y.Defined y) (hz : Z.Defined z) :
    (∃ p q, s.evaluate B x y z = .ok p ∧ t.evaluate B x y z = .ok q ∧ w.evaluate B x y z = .ok (α * p + β * q)) ∧
    (∃ p q, s.evaluateDerivativeX B x y z = .ok p ∧ t.evaluateDerivativeX B x y z = .ok q ∧ w.evaluateDerivativeX B x y z = .ok (α * p + β * q)) ∧
    (∃ p q, s.evaluateDerivativeY B x y z = .ok p ∧ t.evaluateDerivativeY B x y z = .ok q ∧ w.evaluateDerivativeY B x y z = .ok (α * p + β * q)) ∧
    ∃ p q, s.evaluateDerivativeZ B x y z = .ok p ∧ t.evaluateDerivativeZ B x y z = .ok q ∧ w.evaluateDerivativeZ B x y z = .ok (α * p + β * q) := by
  have key : ∀ x y z, X.Defined x → Y.Defined y → Z.Defined z →
      ∃ p q, s.evaluate B x y z = .ok p ∧ t.evaluate B x y z = .ok q ∧ w.evaluate B x y z = .ok (α * p + β * q) := fun x y z hx hy hz =>
    ⟨_, _, C29_evaluate_3d B hb hs hx hy hz, C29_evaluate_3d B hc ht hx hy hz, by
      rw [C29_evaluate_3d B hd hw hx hy hz, ← poly3_eq, ← poly3_eq, ← poly3_eq]
      exact congrArg _ (poly1_linear _ _ _ _ α β _ fun k hk => poly1_linear _ _ _ _ α β _ fun i hi => poly1_linear _ _ _ _ α β _ fun j hj => e i j k hi hj hk)⟩
  have a := C30_derivative_3d B hb hs hx hy hz
  have a' := C30_derivative_3d B hc ht hx hy hz
  have a'' := C30_derivative_3d B hd hw hx hy hz
  exact ⟨key x y z hx hy hz, isDerivAt_linear a.1 a'.1 a''.1 (hx.eventually.mono fun t h => key t y z h hy hz),
    isDerivAt_linear a.2.1 a'.2.1 a''.2.1 (hy.eventually.mono fun t h => key x t z hx h hz), isDerivAt_linear a.2.2 a'.2.2 a''.2.2 (hz.eventually.mono fun t h => key x y t hx hy h)⟩

/-! ## Products -/

theorem poly1_eval (n : Nat) (b : Nat → ℝ) (u : ℝ) : poly1 n b u = (∑ i ∈ range n, Polynomial.monomial i (b i)).eval u := by
  rw [Polynomial.eval_finsetSum]
  exact sum_congr rfl fun i _ => by rw [Polynomial.eval_monomial]

theorem poly1_coeff (n : Nat) (b : Nat → ℝ) (k : Nat) : (∑ i ∈ range n, Polynomial.monomial i (b i)).coeff k = if k < n then b k else 0 := by
  rw [Polynomial.finsetSum_coeff]
  simp only [Polynomial.coeff_monomial]
  rw [sum_ite_eq' (range n) k b]
  simp

/-- C211: the coefficients `d k`, the sums of the `b i * c j` with `i + j = k`, give the product of the two functions. -/
theorem C211_product (B : Build) {b c d : List ℝ} (hb : b ≠ []) (hc : c ≠ []) (hd : d.length + 1 = b.length + c.length)
    (e : ∀ k, k < d.length → d.getD k 0 = ∑ p ∈ antidiagonal k, b.getD p.1 0 * c.getD p.2 0) {s t w : PS1 ℝ} {X : Domain ℝ} (hs : Built1 b s X) (ht : Built1 c t X) (hw : Built1 d w X) {x : ℝ}
    (hx : X.Defined x) : ∃ p q, s.evaluate B x = .ok p ∧ t.evaluate B x = .ok q ∧ w.evaluate B x = .ok (p * q) := by
  have hb0 : b.length ≠ 0 := fun h => hb (List.length_eq_zero_iff.1 h)
  have hc0 : c.length ≠ 0 := fun h => hc (List.length_eq_zero_iff.1 h)
  have hd0 : d ≠ [] := fun h => by rw [h] at hd; simp at hd; omega
  refine ⟨_, _, C29_evaluate_1d B hb hs hx, C29_evaluate_1d B hc ht hx, ?_⟩
  rw [C29_evaluate_1d B hd0 hw hx, poly1_eval, poly1_eval, poly1_eval, ← Polynomial.eval_mul]
  have pad : ∀ (v : List ℝ) i, ¬ i < v.length → v.getD i 0 = 0 := fun v i h => by simp [List.getD, List.getElem?_eq_none (not_lt.1 h)]
  refine congrArg (fun P : Polynomial ℝ => Res.ok (P.eval (X.unit x))) (Polynomial.ext fun k => ?_)
  rw [Polynomial.coeff_mul, poly1_coeff]
  have e1 : ∑ p ∈ antidiagonal k, (∑ i ∈ range b.length, Polynomial.monomial i (b.getD i 0)).coeff p.1 * (∑ i ∈ range c.length, Polynomial.monomial i (c.getD i 0)).coeff p.2 =
      ∑ p ∈ antidiagonal k, b.getD p.1 0 * c.getD p.2 0 := by
    refine sum_congr rfl fun p _ => ?_
    rw [poly1_coeff, poly1_coeff]
    split_ifs with h1 h2 h2
    · rfl
    · rw [pad c _ h2]
    · rw [zero_mul, pad b _ h1, zero_mul]
    · rw [zero_mul, pad b _ h1, zero_mul]
  rw [e1]
  split_ifs with hk
  · exact e k hk
  · symm
    refine sum_eq_zero fun p hp => ?_
    have hp := mem_antidiagonal.1 hp
    by_cases h1 : p.1 < b.length
    · rw [pad c p.2 (by omega), mul_zero]
    · rw [pad b p.1 h1, zero_mul]

/-! ## Coefficients that are zero -/

theorem poly1_padded {n N : Nat} (h : n ≤ N) (b c : Nat → ℝ) (u : ℝ) (e : ∀ i, i < n → c i = b i) (z : ∀ i, n ≤ i → i < N → c i = 0) : poly1 N c u = poly1 n b u := by
  obtain ⟨k, rfl⟩ := Nat.exists_eq_add_of_le h
  unfold poly1
  rw [sum_range_add (fun i => c i * u ^ i) n k]
  rw [sum_congr rfl fun i hi => by rw [e i (mem_range.1 hi)], show ∑ i ∈ range k, c (n + i) * u ^ (n + i) = 0 from
    sum_eq_zero fun i hi => by rw [z (n + i) (by omega) (by have := mem_range.1 hi; omega), zero_mul], add_zero]

/-- C211: coefficients of value zero behind the others change neither the values nor the derivative. -/
theorem C211_zeros_1d (B : Build) {b : List ℝ} (hb : b ≠ []) (k : Nat) {s t : PS1 ℝ} {X : Domain ℝ} (hs : Built1 b s X) (ht : Built1 (b ++ List.replicate k 0) t X) {x : ℝ} (hx : X.Defined x) :
    t.evaluate B x = s.evaluate B x ∧ t.evaluateDerivativeX B x = s.evaluateDerivativeX B x := by
  have key : ∀ y, X.Defined y → t.evaluate B y = s.evaluate B y := fun y hy => by
    rw [C29_evaluate_1d B (by simp [hb]) ht hy, C29_evaluate_1d B hb hs hy]
    refine congrArg _ (poly1_padded (by simp) _ _ _ (fun i hi => by simp [List.getD, List.getElem?_append_left hi]) fun i hi _ => ?_)
    simp only [List.getD, List.getElem?_append_right hi, List.getElem?_replicate]
    split_ifs <;> rfl
  exact ⟨key x hx, isDerivAt_unique (C30_derivative_1d B (by simp [hb]) ht hx) (C30_derivative_1d B hb hs hx) (hx.eventually.mono key)⟩

/-- C211: rows and columns of zeros below and to the right of the matrix change nothing. -/
theorem C211_zeros_2d (B : Build) {b c : Mat ℝ} (hr : b.rows ≠ 0) (hcl : b.cols ≠ 0) (h1 : b.rows ≤ c.rows) (h2 : b.cols ≤ c.cols)
    (e : ∀ i j, i < c.rows → j < c.cols → c.entry i j = if i < b.rows ∧ j < b.cols then b.entry i j else 0) {s t : PS2 ℝ} {X Y : Domain ℝ} (hs : Built2 b s X Y) (ht : Built2 c t X Y)
    {x y : ℝ} (hx : X.Defined x) (hy : Y.Defined y) :
    t.evaluate B x y = s.evaluate B x y ∧ t.evaluateDerivativeX B x y = s.evaluateDerivativeX B x y ∧ t.evaluateDerivativeY B x y = s.evaluateDerivativeY B x y := by
  have r : c.rows ≠ 0 := by omega
  have q : c.cols ≠ 0 := by omega
  have key : ∀ x y, X.Defined x → Y.Defined y → t.evaluate B x y = s.evaluate B x y := fun x y hx hy => by
    rw [C29_evaluate_2d B r q ht hx hy, C29_evaluate_2d B hr hcl hs hx hy, ← poly2_eq, ← poly2_eq]
    refine congrArg _ (poly1_padded h1 _ _ _ (fun i hi => poly1_padded h2 _ _ _ (fun j hj => by rw [e i j (by omega) (by omega), if_pos ⟨hi, hj⟩])
      fun j hj hj' => by rw [e i j (by omega) hj', if_neg (by omega)]) fun i hi hi' => ?_)
    exact sum_eq_zero fun j hj => by rw [e i j hi' (mem_range.1 hj), if_neg (by omega), zero_mul]
  have a := C30_derivative_2d B hr hcl hs hx hy
  have a' := C30_derivative_2d B r q ht hx hy
  exact ⟨key x y hx hy, isDerivAt_unique a'.1 a.1 (hx.eventually.mono fun t h => key t y h hy), isDerivAt_unique a'.2 a.2 (hy.eventually.mono fun t h => key x t hx h)⟩

/-! ## Axes -/

/-- C211: the transposed coefficients, with the two domains exchanged, give the function with its arguments exchanged, and the derivatives with respect to each. -/
theorem C211_exchange (B : Build) {b c : Mat ℝ} (hr : b.rows ≠ 0) (hcl : b.cols ≠ 0) (h1 : c.rows = b.cols) (h2 : c.cols = b.rows)
    (e : ∀ i j, i < b.rows → j < b.cols → c.entry j i = b.entry i j) {s t : PS2 ℝ} {X Y : Domain ℝ} (hs : Built2 b s X Y) (ht : Built2 c t Y X) {x y : ℝ} (hx : X.Defined x) (hy : Y.Defined y) :
    t.evaluate B y x = s.evaluate B x y ∧ t.evaluateDerivativeX B y x = s.evaluateDerivativeY B x y ∧ t.evaluateDerivativeY B y x = s.evaluateDerivativeX B x y := by
  have r : c.rows ≠ 0 := h1 ▸ hcl
  have q : c.cols ≠ 0 := h2 ▸ hr
  have key : ∀ x y, X.Defined x → Y.Defined y → t.evaluate B y x = s.evaluate B x y := fun x y hx hy => by
    rw [C29_evaluate_2d B r q ht hy hx, C29_evaluate_2d B hr hcl hs hx hy, h1, h2]
    unfold poly2
    rw [sum_comm]
    exact congrArg _ (sum_congr rfl fun i hi => sum_congr rfl fun j hj => by rw [e i j (mem_range.1 hi) (mem_range.1 hj)]; ring)
  have a := C30_derivative_2d B hr hcl hs hx hy
  have a' := C30_derivative_2d B r q ht hy hx
  exact ⟨key x y hx hy, isDerivAt_unique a'.1 a.2 (hy.eventually.mono fun t h => key x t hx h), isDerivAt_unique a'.2 a.1 (hx.eventually.mono fun t h => key t y h hy)⟩

/-- C211: with every other coefficient of the opposite sign, the function on a segment is read in the other direction. -/
theorem C211_mirror (B : Build) {b c : List ℝ} (hb : b ≠ []) (hc : c.length = b.length) (e : ∀ i, i < b.length → c.getD i 0 = (-1) ^ i * b.getD i 0) {a a' : ℝ} (haa : a ≠ a') {s t : PS1 ℝ}
    (hs : Built1 b s (.segment a a')) (ht : Built1 c t (.segment a a')) (x : ℝ) :
    t.evaluate B (a + a' - x) = s.evaluate B x ∧ ∃ p, s.evaluateDerivativeX B x = .ok p ∧ t.evaluateDerivativeX B (a + a' - x) = .ok (-p) := by
  have hc0 : c ≠ [] := fun h => hb (List.length_eq_zero_iff.1 (by rw [← hc, h]; rfl))
  have D : ∀ y, (Domain.segment a a').Defined y := fun _ => haa
  have key : ∀ x, t.evaluate B (a + a' - x) = s.evaluate B x := fun x => by
    rw [C29_evaluate_1d B hc0 ht (D _), C29_evaluate_1d B hb hs (D _), hc]
    have u : (Domain.segment a a').unit (a + a' - x) = -(Domain.segment a a').unit x := by
      unfold Domain.unit
      ring
    rw [u]
    refine congrArg _ (sum_congr rfl fun i hi => ?_)
    beta_reduce
    rw [e i (mem_range.1 hi), neg_pow ((Domain.segment a a').unit x), show ∀ p q r : ℝ, p * q * (p * r) = p * p * (q * r) from fun _ _ _ => by ring, ← mul_pow]
    norm_num
  refine ⟨key x, ?_⟩
  obtain ⟨f, d, h1, h2, h3⟩ := C30_derivative_1d B hb hs (D x)
  refine ⟨d, h2, isDerivAt_unique (C30_derivative_1d B hc0 ht (D (a + a' - x))) ⟨fun y => f (a + a' - y), -d, ?_, rfl, ?_⟩ (.of_forall fun _ => rfl)⟩
  · have hc : Filter.Tendsto (fun y => a + a' - y) (nhds (a + a' - x)) (nhds x) := by
      have : Continuous fun y : ℝ => a + a' - y := by fun_prop
      simpa using this.tendsto (a + a' - x)
    filter_upwards [hc.eventually h1] with y hy
    rw [← hy, ← key, sub_sub_cancel]
  · have h4 : HasDerivAt f d (a + a' - (a + a' - x)) := by rw [sub_sub_cancel]; exact h3
    have : HasDerivAt (fun y => f (a + a' - y)) (d * -1) (a + a' - x) := h4.comp (a + a' - x) ((hasDerivAt_id _).const_sub (a + a'))
    rwa [mul_neg_one] at this

/-- C211: other units: on the segment from `p a + q` to `p a' + q`, or on the half line from `p a` (then `q = 0`), the same coefficients give at `p x + q` the value at `x`,
and a derivative `p` times as small. -/
theorem C211_units (B : Build) {b : List ℝ} (hb : b ≠ []) {p q : ℝ} (hp : p ≠ 0) {X X' : Domain ℝ}
    (h : (∃ a a', X = .segment a a' ∧ X' = .segment (p * a + q) (p * a' + q)) ∨ (∃ a, X = .halfLine a ∧ X' = .halfLine (p * a) ∧ q = 0)) {s t : PS1 ℝ} (hs : Built1 b s X) (ht : Built1 b t X')
    {x : ℝ} (hx : X.Defined x) :
    t.evaluate B (p * x + q) = s.evaluate B x ∧ ∃ d, s.evaluateDerivativeX B x = .ok d ∧ t.evaluateDerivativeX B (p * x + q) = .ok (d / p) := by
  have D : ∀ y, X.Defined y → X'.Defined (p * y + q) ∧ X'.unit (p * y + q) = X.unit y := fun y hy => by
    rcases h with ⟨a, a', rfl, rfl⟩ | ⟨a, rfl, rfl, rfl⟩
    · have hne : a ≠ a' := hy
      have h0 : a' - a ≠ 0 := sub_ne_zero.2 hne.symm
      refine ⟨fun h => hne (mul_left_cancel₀ hp (add_right_cancel h)), ?_⟩
      unfold Domain.unit
      rw [div_eq_div_iff (by rw [show p * a' + q - (p * a + q) = p * (a' - a) by ring]; exact mul_ne_zero hp h0) h0]
      ring
    · have hne : y ≠ 0 := hy
      refine ⟨by rw [add_zero]; exact mul_ne_zero hp hne, ?_⟩
      unfold Domain.unit
      field_simp
      ring
  have key : ∀ y, X.Defined y → t.evaluate B (p * y + q) = s.evaluate B y := fun y hy => by
    rw [C29_evaluate_1d B hb ht (D y hy).1, C29_evaluate_1d B hb hs hy, (D y hy).2]
  refine ⟨key x hx, ?_⟩
  obtain ⟨f, d, h1, h2, h3⟩ := C30_derivative_1d B hb hs hx
  have back : ∀ y, p * ((y - q) / p) + q = y := fun y => by field_simp; ring
  have back' : (p * x + q - q) / p = x := by field_simp; ring
  refine ⟨d, h2, isDerivAt_unique (C30_derivative_1d B hb ht (D x hx).1) ⟨fun y => f ((y - q) / p), d / p, ?_, rfl, ?_⟩ (.of_forall fun _ => rfl)⟩
  · have hc : Filter.Tendsto (fun y => (y - q) / p) (nhds (p * x + q)) (nhds x) := by
      have : Continuous fun y : ℝ => (y - q) / p := by fun_prop
      have := this.tendsto (p * x + q)
      rwa [back'] at this
    filter_upwards [hc.eventually h1, hc.eventually hx.eventually] with y hy hy'
    rw [← hy, ← key _ hy', back]
  · have h4 : HasDerivAt f d ((p * x + q - q) / p) := by rw [back']; exact h3
    have : HasDerivAt (fun y => f ((y - q) / p)) (d * (1 / p)) (p * x + q) := h4.comp (p * x + q) (((hasDerivAt_id (p * x + q)).sub_const q).div_const p)
    rwa [mul_one_div] at this

/-! ## The coefficients are determined -/

/-- C211: two series of the same length that agree at as many different points of the domain as there are coefficients have the same coefficients (on a half line, one whose end is not 0). -/
theorem C211_determined (B : Build) {b c : List ℝ} (hb : b ≠ []) (hc : c.length = b.length) {s t : PS1 ℝ} {X : Domain ℝ} (hX : X ≠ .halfLine 0) (hs : Built1 b s X) (ht : Built1 c t X) (S : Finset ℝ)
    (hS : b.length ≤ S.card) (hd : ∀ x ∈ S, X.Defined x) (e : ∀ x ∈ S, s.evaluate B x = t.evaluate B x) : b = c := by
  have hc0 : c ≠ [] := fun h => hb (List.length_eq_zero_iff.1 (by rw [← hc, h]; rfl))
  have inj : Set.InjOn X.unit S := fun x hx y hy h => by
    have h1 := hd x hx
    have h2 := hd y hy
    cases X with
    | segment a a' =>
      have h1 : a ≠ a' := h1
      have h0 : a' - a ≠ 0 := sub_ne_zero.2 h1.symm
      unfold Domain.unit at h
      rw [div_left_inj' h0] at h
      linarith
    | halfLine a =>
      have ha : a ≠ 0 := fun h => hX (by rw [h])
      have h1 : x ≠ 0 := h1
      have h2 : y ≠ 0 := h2
      unfold Domain.unit at h
      have h3 : 2 * a / x = 2 * a / y := by linarith
      rw [div_eq_div_iff h1 h2] at h3
      exact (mul_left_cancel₀ (mul_ne_zero two_ne_zero ha) h3).symm
  have hpoly : (∑ i ∈ range b.length, Polynomial.monomial i (b.getD i 0) : Polynomial ℝ) = ∑ i ∈ range b.length, Polynomial.monomial i (c.getD i 0) := by
    refine Polynomial.eq_of_degree_sub_lt_of_eval_finset_eq (S.image X.unit) ?_ ?_
    · rw [card_image_of_injOn inj]
      refine lt_of_lt_of_le ?_ (Nat.cast_le.2 hS)
      rw [Polynomial.degree_lt_iff_coeff_zero]
      intro k hk
      rw [Polynomial.coeff_sub, poly1_coeff, poly1_coeff, if_neg (by omega), if_neg (by omega), sub_zero]
    · intro u hu
      obtain ⟨x, hx, rfl⟩ := mem_image.1 hu
      have := e x hx
      rw [C29_evaluate_1d B hb hs (hd x hx), C29_evaluate_1d B hc0 ht (hd x hx), hc] at this
      rw [← poly1_eval, ← poly1_eval]
      exact Res.ok.inj this
  refine List.ext_getElem hc.symm fun i h1 h2 => ?_
  have := congrArg (fun P => P.coeff i) hpoly
  simp only [poly1_coeff, if_pos h1] at this
  simpa [List.getD, List.getElem?_eq_getElem h1, List.getElem?_eq_getElem h2] using this

/-! ## Cases that meet the hypotheses -/

example : Built1 [(1 : ℝ), 2] (PS1.closed [1, 2] 0 4) (.segment 0 4) ∧ (Domain.segment (0 : ℝ) 4).Defined 1 ∧ Built1 [(1 : ℝ), -2] (PS1.closed [1, -2] 0 4) (.segment 0 4) :=
  ⟨.closed 0 4, by simp [Domain.Defined], .closed 0 4⟩
example : PS1.evaluate ⟨true⟩ (PS1.closed [(1 : ℚ), -2] 0 4) (0 + 4 - 3) = PS1.evaluate ⟨true⟩ (PS1.closed [(1 : ℚ), 2] 0 4) 3 := by decide +kernel
/-- `(1 + 2 u) (3 + u)` is `3 + 7 u + 2 u²`. -/
example : ∀ k, k < 3 → [(3 : ℝ), 7, 2].getD k 0 = ∑ p ∈ antidiagonal k, [(1 : ℝ), 2].getD p.1 0 * [(3 : ℝ), 1].getD p.2 0 := by
  intro k hk
  interval_cases k <;> simp [Nat.antidiagonal_succ] <;> norm_num
example : Built2 (⟨2, 1, fun i _ => (i : ℝ)⟩ : Mat ℝ) (PS2.opened ⟨2, 1, fun i _ => i⟩ 1 2) (.halfLine 1) (.halfLine 2) ∧
    Built2 (⟨1, 2, fun _ i => (i : ℝ)⟩ : Mat ℝ) (PS2.opened ⟨1, 2, fun _ i => i⟩ 2 1) (.halfLine 2) (.halfLine 1) := ⟨.opened 1 2, .opened 2 1⟩

end MU
