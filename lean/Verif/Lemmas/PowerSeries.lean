import Verif.Model.PowerSeries
import Verif.Lemmas.Polynomial
import Verif.Spec.PowerSeries
import Mathlib.Analysis.Calculus.Deriv.Comp
import Mathlib.Analysis.Calculus.Deriv.Inv
import Mathlib.Topology.Algebra.Order.Field
import Mathlib.Algebra.Order.Field.Basic
import Mathlib.Tactic.FieldSimp

set_option linter.unusedSectionVars false

namespace MU
open Finset Spec

section maps
variable {K : Type} [Field K] [DecidableEq K]

/-- The domain of a variable of a series. -/
def Seg.dom : Seg K → Domain K
  | .closed a b => .segment a b
  | .opened a => .halfLine a

/-- The derivative of the map to `[-1, 1]`. -/
def Seg.coef : Seg K → K → K
  | .closed a b, _ => 2 / (b - a)
  | .opened a, x => 2 * a / (x * x)

theorem Seg.toUnit_ok [NeZero (2 : K)] {s : Seg K} {x : K} (h : s.dom.Defined x) : s.toUnit x = .ok (s.dom.unit x) := by
  cases s with
  | closed a b =>
    have h' : b - a ≠ 0 := fun e => h (sub_eq_zero.mp e).symm
    have h2 : (2 : K) ≠ 0 := NeZero.ne 2
    simp only [toUnit, fdiv_ok h', Res.ok_bind, Res.pure_eq, dom, Domain.unit]
    congr 1
    field_simp
    ring
  | opened a =>
    have h' : x ≠ 0 := h
    simp only [toUnit, fdiv_ok h', Res.ok_bind, Res.pure_eq, dom, Domain.unit]
    congr 1
    ring

theorem Seg.coefficientDerivative_ok {s : Seg K} {x : K} (h : s.dom.Defined x) : s.coefficientDerivative x = .ok (s.coef x) := by
  cases s with
  | closed a b =>
    have h' : b - a ≠ 0 := fun e => h (sub_eq_zero.mp e).symm
    simp only [coefficientDerivative, fdiv_ok h', coef]
  | opened a =>
    have h' : x * x ≠ 0 := mul_ne_zero h h
    simp only [coefficientDerivative, fdiv_ok h', coef]

end maps

theorem Seg.hasDerivAt {s : Seg ℝ} {x : ℝ} (h : s.dom.Defined x) : HasDerivAt s.dom.unit (s.coef x) x := by
  cases s with
  | closed a b =>
    have h' : b - a ≠ 0 := fun e => h (sub_eq_zero.mp e).symm
    have := ((((hasDerivAt_id x).const_mul 2).sub_const a).sub_const b).div_const (b - a)
    rw [mul_one] at this
    exact this
  | opened a =>
    have h' : x ≠ 0 := h
    have := (((hasDerivAt_inv h').const_mul (2 * a)).const_sub 1)
    rw [show -(2 * a * -(x ^ 2)⁻¹) = 2 * a / (x * x) by field_simp] at this
    exact this

theorem Seg.eventually_defined {s : Seg ℝ} {x : ℝ} (h : s.dom.Defined x) : ∀ᶠ t in nhds x, s.dom.Defined t := by
  cases s with
  | closed a b => exact Filter.Eventually.of_forall (fun _ => h)
  | opened a => exact isOpen_ne.mem_nhds h

/-- A program whose value is a differentiable function of the unit coordinate. -/
theorem isDerivAt_unit {s : Seg ℝ} {x : ℝ} (hx : s.dom.Defined x) {F : ℝ → Res ℝ} {D : Res ℝ} {P : ℝ → ℝ} {P' : ℝ}
    (hF : ∀ t, s.dom.Defined t → F t = .ok (P (s.dom.unit t))) (hD : D = .ok (s.coef x * P'))
    (hP : HasDerivAt P P' (s.dom.unit x)) : IsDerivAt F D x := by
  refine ⟨fun t => P (s.dom.unit t), s.coef x * P', ?_, hD, ?_⟩
  · filter_upwards [Seg.eventually_defined hx] with t ht using hF t ht
  · have := hP.comp x (Seg.hasDerivAt hx)
    rwa [mul_comm] at this

/-! ## Nested sums -/

section sums
variable {K : Type} [Field K]

theorem poly1_congr {n : Nat} {b c : Nat → K} (h : ∀ i, i < n → b i = c i) (u : K) : poly1 n b u = poly1 n c u :=
  sum_congr rfl (fun i hi => by rw [h i (mem_range.mp hi)])

theorem dpoly1_congr {n : Nat} {b c : Nat → K} (h : ∀ i, i < n → b i = c i) (u : K) : dpoly1 n b u = dpoly1 n c u :=
  sum_congr rfl (fun i hi => by rw [h i (mem_range.mp hi)])

theorem poly2_eq (n m : Nat) (b : Nat → Nat → K) (u v : K) :
    poly1 n (fun i => poly1 m (b i) v) u = poly2 n m b u v := by
  simp only [poly1, poly2]
  refine sum_congr rfl (fun i _ => ?_)
  rw [sum_mul]
  exact sum_congr rfl (fun j _ => by ring)

theorem poly3_eq (n m l : Nat) (b : Nat → Nat → Nat → K) (u v w : K) :
    poly1 l (fun k => poly1 n (fun i => poly1 m (fun j => b i j k) v) u) w = poly3 n m l b u v w := by
  have h1 : ∀ k, poly1 n (fun i => poly1 m (fun j => b i j k) v) u = ∑ i ∈ range n, ∑ j ∈ range m, b i j k * u ^ i * v ^ j :=
    fun k => poly2_eq n m (fun i j => b i j k) u v
  simp only [poly3]
  rw [show poly1 l (fun k => poly1 n (fun i => poly1 m (fun j => b i j k) v) u) w =
    ∑ k ∈ range l, ∑ i ∈ range n, ∑ j ∈ range m, b i j k * u ^ i * v ^ j * w ^ k from
      sum_congr rfl (fun k _ => by simp only [h1, sum_mul])]
  rw [sum_comm]
  refine sum_congr rfl (fun i _ => ?_)
  rw [sum_comm]

theorem sum_poly (n m l : Nat) (b : Nat → Nat → Nat → K) (u v w : K) :
    poly1 n (fun i => poly1 m (fun j => poly1 l (fun k => b i j k) w) v) u = poly3 n m l b u v w := by
  simp only [poly1, poly3, sum_mul]
  refine sum_congr rfl (fun i _ => sum_congr rfl (fun j _ => sum_congr rfl (fun k _ => by ring)))

theorem sum_dpoly_x (n m l : Nat) (b : Nat → Nat → Nat → K) (u v w : K) :
    dpoly1 n (fun i => poly1 m (fun j => poly1 l (fun k => b i j k) w) v) u =
      poly1 l (fun k => dpoly1 n (fun i => poly1 m (fun j => b i j k) v) u) w := by
  simp only [poly1, dpoly1, sum_mul, mul_sum]
  rw [sum_congr rfl (fun i _ => sum_comm), sum_comm]
  exact sum_congr rfl (fun k _ => sum_congr rfl (fun i _ => sum_congr rfl (fun j _ => by ring)))

theorem sum_dpoly_y (n m l : Nat) (b : Nat → Nat → Nat → K) (u v w : K) :
    poly1 n (fun i => dpoly1 m (fun j => poly1 l (fun k => b i j k) w) v) u =
      poly1 l (fun k => poly1 n (fun i => dpoly1 m (fun j => b i j k) v) u) w := by
  simp only [poly1, dpoly1, sum_mul, mul_sum]
  rw [sum_congr rfl (fun i _ => sum_comm), sum_comm]
  exact sum_congr rfl (fun k _ => sum_congr rfl (fun i _ => sum_congr rfl (fun j _ => by ring)))

end sums

/-- Derivative of a sum whose coefficients depend on the variable. -/
theorem hasDerivAt_poly1_coef {n : Nat} {g : Nat → ℝ → ℝ} {g' : Nat → ℝ} {t : ℝ} (u : ℝ)
    (h : ∀ i, i < n → HasDerivAt (g i) (g' i) t) : HasDerivAt (fun t => poly1 n (fun i => g i t) u) (poly1 n g' u) t := by
  exact HasDerivAt.fun_sum (u := range n) (A := fun i t => g i t * u ^ i) (A' := fun i => g' i * u ^ i)
    (fun i hi => (h i (mem_range.mp hi)).mul_const _)

/-! ## Values of the programs -/

section values
variable {K : Type} [Field K] [DecidableEq K]

theorem upTo_len (n : Nat) : upTo ((n : Int) - 1) = n := by simp [upTo]

theorem PS1.qi (B : Build) (bi : List K) :
    collect bi.length (fun i => eAt B bi i) = .ok ((List.range bi.length).map (fun i => bi.getD i 0)) :=
  collect_ok _ (fun i hi => by rw [eAt_lt hi]; simp [List.getD, List.getElem?_eq_getElem hi])

theorem PS1.evaluateUnit_ok (B : Build) {bi : List K} (h : bi ≠ []) (x : Seg K) (u : K) :
    PS1.evaluateUnit B (PS1.base bi x) u = .ok (poly1 bi.length (fun i => bi.getD i 0) u) := by
  have hl : bi.length ≠ 0 := (List.length_pos_of_ne_nil h).ne'
  simp only [evaluateUnit, base, upTo_len, PS1.qi, Res.ok_bind, horner_map hl]

theorem PS1.derivUnit_ok (B : Build) {bi : List K} (h : bi ≠ []) {s : Seg K} {x : K} (hx : s.dom.Defined x) (u : K) :
    PS1.evaluateDerivativeXUnit B (PS1.base bi s) x u = .ok (s.coef x * dpoly1 bi.length (fun i => bi.getD i 0) u) := by
  have hl : bi.length ≠ 0 := (List.length_pos_of_ne_nil h).ne'
  simp only [evaluateDerivativeXUnit, base, upTo_len, PS1.qi, Res.ok_bind, hornerDerivative_map hl, Seg.coefficientDerivative_ok hx, Res.pure_eq]

theorem row_horner (B : Build) {m : Mat K} (hc : m.cols ≠ 0) (v : K) {i : Nat} (hi : i < m.rows) :
    (m.row B i >>= fun pj => horner pj v) = .ok (poly1 m.cols (m.entry i) v) := by
  rw [Mat.row_lt hi, Res.ok_bind, horner_map hc]

theorem row_hornerDerivative (B : Build) {m : Mat K} (hc : m.cols ≠ 0) (v : K) {i : Nat} (hi : i < m.rows) :
    (m.row B i >>= fun pj => hornerDerivative pj v) = .ok (dpoly1 m.cols (m.entry i) v) := by
  rw [Mat.row_lt hi, Res.ok_bind, hornerDerivative_map hc]

theorem PS2.evaluateUnit_ok (B : Build) {b : Mat K} (hr : b.rows ≠ 0) (hc : b.cols ≠ 0) (sx sy : Seg K) (u v : K) :
    PS2.evaluateUnit B (PS2.base b sx sy) u v = .ok (poly1 b.rows (fun i => poly1 b.cols (b.entry i) v) u) := by
  simp only [evaluateUnit, base, upTo_len]
  rw [collect_ok _ (fun i hi => row_horner B hc v hi), Res.ok_bind, horner_map hr]

theorem PS2.derivXUnit_ok (B : Build) {b : Mat K} (hr : b.rows ≠ 0) (hc : b.cols ≠ 0) {sx : Seg K} (sy : Seg K) {x : K}
    (hx : sx.dom.Defined x) (u v : K) :
    PS2.evaluateDerivativeXUnit B (PS2.base b sx sy) x u v =
      .ok (sx.coef x * dpoly1 b.rows (fun i => poly1 b.cols (b.entry i) v) u) := by
  simp only [evaluateDerivativeXUnit, base, upTo_len]
  rw [collect_ok _ (fun i hi => row_horner B hc v hi)]
  simp only [Res.ok_bind, hornerDerivative_map hr, Seg.coefficientDerivative_ok hx, Res.pure_eq]

theorem PS2.derivYUnit_ok (B : Build) {b : Mat K} (hr : b.rows ≠ 0) (hc : b.cols ≠ 0) (sx : Seg K) {sy : Seg K} {y : K}
    (hy : sy.dom.Defined y) (u v : K) :
    PS2.evaluateDerivativeYUnit B (PS2.base b sx sy) y u v =
      .ok (sy.coef y * poly1 b.rows (fun i => dpoly1 b.cols (b.entry i) v) u) := by
  simp only [evaluateDerivativeYUnit, base, upTo_len]
  rw [collect_ok _ (fun i hi => row_hornerDerivative B hc v hi)]
  simp only [Res.ok_bind, horner_map hr, Seg.coefficientDerivative_ok hy, Res.pure_eq]

/-! ### Three variables -/

theorem Cube.get {b : List (Mat K)} {n m l : Nat} {e : Nat → Nat → Nat → K} (h : Cube b n m l e) {k : Nat} (hk : k < l) :
    ∃ a, vAt b k = .ok a ∧ a.rows = n ∧ a.cols = m ∧ ∀ i j, i < n → j < m → a.entry i j = e i j k := by
  have hk' : k < b.length := by rw [h.len]; exact hk
  exact ⟨b[k], vAt_lt hk', h.mats k b[k] (List.getElem?_eq_getElem hk')⟩

variable {b : List (Mat K)} {n m l : Nat} {e : Nat → Nat → Nat → K}

theorem Cube.row (h : Cube b n m l e) (B : Build) {k : Nat} (hk : k < l) {i : Nat} (hi : i < n) (v : K) :
    (vAt b k >>= fun a => a.row B i >>= fun pj => horner pj v) = .ok (poly1 m (fun j => e i j k) v) := by
  obtain ⟨a, ha, h1, h2, h3⟩ := h.get hk
  rw [ha, Res.ok_bind, row_horner B (by rw [h2]; exact h.hm) v (by rw [h1]; exact hi), h2]
  rw [poly1_congr (fun j hj => h3 i j hi hj)]

theorem Cube.rowD (h : Cube b n m l e) (B : Build) {k : Nat} (hk : k < l) {i : Nat} (hi : i < n) (v : K) :
    (vAt b k >>= fun a => a.row B i >>= fun pj => hornerDerivative pj v) = .ok (dpoly1 m (fun j => e i j k) v) := by
  obtain ⟨a, ha, h1, h2, h3⟩ := h.get hk
  rw [ha, Res.ok_bind, row_hornerDerivative B (by rw [h2]; exact h.hm) v (by rw [h1]; exact hi), h2]
  rw [dpoly1_congr (fun j hj => h3 i j hi hj)]

theorem Cube.rowBoth (h : Cube b n m l e) (B : Build) {k : Nat} (hk : k < l) {i : Nat} (hi : i < n) (v : K) :
    (vAt b k >>= fun a => a.row B i >>= fun pj => horner pj v >>= fun q => hornerDerivative pj v >>= fun qd => (.ok (q, qd) : Res (K × K))) =
      .ok (poly1 m (fun j => e i j k) v, dpoly1 m (fun j => e i j k) v) := by
  obtain ⟨a, ha, h1, h2, h3⟩ := h.get hk
  rw [ha, Res.ok_bind, Mat.row_lt (by rw [h1]; exact hi), Res.ok_bind, horner_map (by rw [h2]; exact h.hm), Res.ok_bind,
    hornerDerivative_map (by rw [h2]; exact h.hm), Res.ok_bind, h2]
  rw [poly1_congr (fun j hj => h3 i j hi hj), dpoly1_congr (fun j hj => h3 i j hi hj)]

/-- The object built by the constructor. -/
theorem PS3.base_ok (h : Cube b n m l e) (sx sy sz : Seg K) (t : String) :
    PS3.base b sx sy sz t = .ok ⟨(n : Int) - 1, (m : Int) - 1, (l : Int) - 1, sx, sy, sz, b, t⟩ := by
  obtain ⟨a, ha, h1, h2, _⟩ := h.get (Nat.pos_of_ne_zero h.hl)
  simp only [base, ha, Res.ok_bind, h1, h2, h.len, Res.pure_eq]

variable {s : PS3 K} {sx sy sz : Seg K} {t : String}

theorem PS3.evaluateUnit_ok (B : Build) (h : Cube b n m l e) (hs : PS3.base b sx sy sz t = .ok s) (u v w : K) :
    PS3.evaluateUnit B s u v w = .ok (poly1 l (fun k => poly1 n (fun i => poly1 m (fun j => e i j k) v) u) w) := by
  rw [PS3.base_ok h] at hs
  cases hs
  simp only [evaluateUnit, upTo_len]
  rw [collect_ok (fun k => poly1 n (fun i => poly1 m (fun j => e i j k) v) u)]
  · rw [Res.ok_bind, horner_map h.hl]
  · intro k hk
    rw [collect_ok _ (fun i hi => h.row B hk hi v), Res.ok_bind, horner_map h.hn]

theorem PS3.derivXUnit_ok (B : Build) (h : Cube b n m l e) (hs : PS3.base b sx sy sz t = .ok s) {x : K} (hx : sx.dom.Defined x) (u v w : K) :
    PS3.evaluateDerivativeXUnit B s x u v w =
      .ok (sx.coef x * poly1 l (fun k => dpoly1 n (fun i => poly1 m (fun j => e i j k) v) u) w) := by
  rw [PS3.base_ok h] at hs
  cases hs
  simp only [evaluateDerivativeXUnit, upTo_len]
  rw [collect_ok (fun k => dpoly1 n (fun i => poly1 m (fun j => e i j k) v) u)]
  · simp only [Res.ok_bind, horner_map h.hl, Seg.coefficientDerivative_ok hx, Res.pure_eq]
  · intro k hk
    rw [collect_ok _ (fun i hi => h.row B hk hi v), Res.ok_bind, hornerDerivative_map h.hn]

theorem PS3.derivYUnit_ok (B : Build) (h : Cube b n m l e) (hs : PS3.base b sx sy sz t = .ok s) {y : K} (hy : sy.dom.Defined y) (u v w : K) :
    PS3.evaluateDerivativeYUnit B s y u v w =
      .ok (sy.coef y * poly1 l (fun k => poly1 n (fun i => dpoly1 m (fun j => e i j k) v) u) w) := by
  rw [PS3.base_ok h] at hs
  cases hs
  simp only [evaluateDerivativeYUnit, upTo_len]
  rw [collect_ok (fun k => poly1 n (fun i => dpoly1 m (fun j => e i j k) v) u)]
  · simp only [Res.ok_bind, horner_map h.hl, Seg.coefficientDerivative_ok hy, Res.pure_eq]
  · intro k hk
    rw [collect_ok _ (fun i hi => h.rowD B hk hi v), Res.ok_bind, horner_map h.hn]

theorem PS3.derivZUnit_ok (B : Build) (h : Cube b n m l e) (hs : PS3.base b sx sy sz t = .ok s) {z : K} (hz : sz.dom.Defined z) (u v w : K) :
    PS3.evaluateDerivativeZUnit B s z u v w =
      .ok (sz.coef z * dpoly1 l (fun k => poly1 n (fun i => poly1 m (fun j => e i j k) v) u) w) := by
  rw [PS3.base_ok h] at hs
  cases hs
  simp only [evaluateDerivativeZUnit, upTo_len]
  rw [collect_ok (fun k => poly1 n (fun i => poly1 m (fun j => e i j k) v) u)]
  · simp only [Res.ok_bind, hornerDerivative_map h.hl, Seg.coefficientDerivative_ok hz, Res.pure_eq]
  · intro k hk
    rw [collect_ok _ (fun i hi => h.row B hk hi v), Res.ok_bind, horner_map h.hn]

theorem PS3.bothUnit_ok (B : Build) (h : Cube b n m l e) (hs : PS3.base b sx sy sz t = .ok s) {x y : K} (hx : sx.dom.Defined x)
    (hy : sy.dom.Defined y) (u v w : K) :
    PS3.evaluateFDfdxDfdyUnit B s x y u v w =
      .ok (poly1 l (fun k => poly1 n (fun i => poly1 m (fun j => e i j k) v) u) w,
        sx.coef x * poly1 l (fun k => dpoly1 n (fun i => poly1 m (fun j => e i j k) v) u) w,
        sy.coef y * poly1 l (fun k => poly1 n (fun i => dpoly1 m (fun j => e i j k) v) u) w) := by
  rw [PS3.base_ok h] at hs
  cases hs
  simp only [evaluateFDfdxDfdyUnit, upTo_len, Res.pure_eq]
  rw [collect_ok (fun k => (poly1 n (fun i => poly1 m (fun j => e i j k) v) u, dpoly1 n (fun i => poly1 m (fun j => e i j k) v) u,
    poly1 n (fun i => dpoly1 m (fun j => e i j k) v) u))]
  · simp only [Res.ok_bind, List.map_map, Function.comp_def, horner_map h.hl, Seg.coefficientDerivative_ok hx, Seg.coefficientDerivative_ok hy]
  · intro k hk
    rw [collect_ok _ (fun i hi => h.rowBoth B hk hi v)]
    simp only [Res.ok_bind, List.map_map, Function.comp_def, horner_map h.hn, hornerDerivative_map h.hn]

/-! ### Fixed z -/

/-- The matrix computed by `Compute_cij`. -/
structure IsCij (c : Mat K) (n m l : Nat) (e : Nat → Nat → Nat → K) (w : K) : Prop where
  rows : c.rows = n
  cols : c.cols = m
  entry : ∀ i j, i < n → j < m → c.entry i j = poly1 l (fun k => e i j k) w

theorem PS3.cij_ok (B : Build) (h : Cube b n m l e) (hs : PS3.base b sx sy sz t = .ok s) (w : K) :
    ∃ c, PS3.computeCijUnit B s w = .ok c ∧ IsCij c n m l e w := by
  rw [PS3.base_ok h] at hs
  cases hs
  simp only [computeCijUnit, upTo_len]
  have hin : ∀ i, i < n → ∀ c : Mat K, c.rows = n → c.cols = m →
      forRange 0 m (fun j cij => do
        let rk ← collect l (fun k => do
          let a ← vAt b k
          a.at' B i j)
        let r ← horner rk w
        cij.set B i j r) c =
      .ok { c with entry := fun i' j' => if i' = i ∧ j' < m then poly1 l (fun k => e i j' k) w else c.entry i' j' } := by
    intro i hi c hr hc
    have := forRange_ok (lo := 0) (hi := m) (Nat.zero_le _) (f := fun j cij => do
        let rk ← collect l (fun k => do
          let a ← vAt b k
          a.at' B i j)
        let r ← horner rk w
        cij.set B i j r)
      (fun p => { c with entry := fun i' j' => if i' = i ∧ j' < p then poly1 l (fun k => e i j' k) w else c.entry i' j' }) (by
        intro j _ hj
        rw [collect_ok (fun k => e i j k)]
        · simp only [Res.ok_bind, horner_map h.hl, Mat.set]
          rw [if_pos ⟨by simpa [hr] using hi, by simpa [hc] using hj⟩]
          congr 2
          funext i' j'
          by_cases h1 : i' = i ∧ j' = j
          · simp [h1]
          · by_cases h2 : i' = i ∧ j' < j
            · rw [if_neg h1, if_pos h2, if_pos ⟨h2.1, by omega⟩]
            · rw [if_neg h1, if_neg h2, if_neg]
              rintro ⟨e1, e2⟩
              rcases Nat.lt_succ_iff_lt_or_eq.mp e2 with e3 | e3
              · exact h2 ⟨e1, e3⟩
              · exact h1 ⟨e1, e3⟩
        · intro k hk
          obtain ⟨a, ha, h1, h2, h3⟩ := h.get hk
          rw [ha, Res.ok_bind, Mat.at_lt (by omega) (by omega), h3 i j hi hj])
    simp only [Nat.not_lt_zero, and_false, if_false] at this
    exact this
  have hout := forRange_ok (lo := 0) (hi := n) (Nat.zero_le _) (f := fun i cij =>
      forRange 0 m (fun j cij => do
        let rk ← collect l (fun k => do
          let a ← vAt b k
          a.at' B i j)
        let r ← horner rk w
        cij.set B i j r) cij)
      (fun p => (⟨n, m, fun i' j' => if i' < p ∧ j' < m then poly1 l (fun k => e i' j' k) w else 0⟩ : Mat K)) (by
        intro i _ hi
        rw [hin i hi _ rfl rfl]
        congr 2
        funext i' j'
        show (if i' = i ∧ j' < m then _ else if i' < i ∧ j' < m then _ else _) = _
        by_cases h1 : i' = i ∧ j' < m
        · rw [if_pos h1, if_pos ⟨by omega, h1.2⟩, h1.1]
        · rw [if_neg h1]
          by_cases h2 : i' < i ∧ j' < m
          · rw [if_pos h2, if_pos ⟨by omega, h2.2⟩]
          · rw [if_neg h2, if_neg]
            rintro ⟨e1, e2⟩
            rcases Nat.lt_succ_iff_lt_or_eq.mp e1 with e3 | e3
            · exact h2 ⟨e3, e2⟩
            · exact h1 ⟨e3, e2⟩)
  simp only [Nat.not_lt_zero, false_and, if_false] at hout
  refine ⟨_, hout, rfl, rfl, fun i j hi hj => ?_⟩
  simp [hi, hj]

theorem IsCij.row {c : Mat K} {w : K} (h : Cube b n m l e) (hc : IsCij c n m l e w) (B : Build) (v : K) {i : Nat} (hi : i < n) :
    (c.row B i >>= fun pj => horner pj v) = .ok (poly1 m (fun j => poly1 l (fun k => e i j k) w) v) := by
  rw [row_horner B (by rw [hc.cols]; exact h.hm) v (by rw [hc.rows]; exact hi), hc.cols, poly1_congr (fun j hj => hc.entry i j hi hj)]

theorem IsCij.rowD {c : Mat K} {w : K} (h : Cube b n m l e) (hc : IsCij c n m l e w) (B : Build) (v : K) {i : Nat} (hi : i < n) :
    (c.row B i >>= fun pj => hornerDerivative pj v) = .ok (dpoly1 m (fun j => poly1 l (fun k => e i j k) w) v) := by
  rw [row_hornerDerivative B (by rw [hc.cols]; exact h.hm) v (by rw [hc.rows]; exact hi), hc.cols, dpoly1_congr (fun j hj => hc.entry i j hi hj)]

theorem IsCij.rowBoth {c : Mat K} {w : K} (h : Cube b n m l e) (hc : IsCij c n m l e w) (B : Build) (v : K) {i : Nat} (hi : i < n) :
    (c.row B i >>= fun pj => horner pj v >>= fun q => hornerDerivative pj v >>= fun qd => (.ok (q, qd) : Res (K × K))) =
      .ok (poly1 m (fun j => poly1 l (fun k => e i j k) w) v, dpoly1 m (fun j => poly1 l (fun k => e i j k) w) v) := by
  rw [Mat.row_lt (by rw [hc.rows]; exact hi), Res.ok_bind, horner_map (by rw [hc.cols]; exact h.hm), Res.ok_bind,
    hornerDerivative_map (by rw [hc.cols]; exact h.hm), Res.ok_bind, hc.cols]
  rw [poly1_congr (fun j hj => hc.entry i j hi hj), dpoly1_congr (fun j hj => hc.entry i j hi hj)]

theorem PS3.preUnit_ok (B : Build) (h : Cube b n m l e) (hs : PS3.base b sx sy sz t = .ok s) {c : Mat K} {w : K} (hc : IsCij c n m l e w)
    (u v : K) :
    PS3.evaluateUnitZunitPredefined B s u v c = .ok (poly1 n (fun i => poly1 m (fun j => poly1 l (fun k => e i j k) w) v) u) := by
  rw [PS3.base_ok h] at hs
  cases hs
  simp only [evaluateUnitZunitPredefined, upTo_len]
  rw [collect_ok _ (fun i hi => hc.row h B v hi), Res.ok_bind, horner_map h.hn]

theorem PS3.preXUnit_ok (B : Build) (h : Cube b n m l e) (hs : PS3.base b sx sy sz t = .ok s) {c : Mat K} {w : K} (hc : IsCij c n m l e w)
    {x : K} (hx : sx.dom.Defined x) (u v : K) :
    PS3.evaluateDerivativeXUnitZunitPredefined B s x u v c =
      .ok (sx.coef x * dpoly1 n (fun i => poly1 m (fun j => poly1 l (fun k => e i j k) w) v) u) := by
  rw [PS3.base_ok h] at hs
  cases hs
  simp only [evaluateDerivativeXUnitZunitPredefined, upTo_len]
  rw [collect_ok _ (fun i hi => hc.row h B v hi)]
  simp only [Res.ok_bind, hornerDerivative_map h.hn, Seg.coefficientDerivative_ok hx, Res.pure_eq]

theorem PS3.preYUnit_ok (B : Build) (h : Cube b n m l e) (hs : PS3.base b sx sy sz t = .ok s) {c : Mat K} {w : K} (hc : IsCij c n m l e w)
    {y : K} (hy : sy.dom.Defined y) (u v : K) :
    PS3.evaluateDerivativeYUnitZunitPredefined B s y u v c =
      .ok (sy.coef y * poly1 n (fun i => dpoly1 m (fun j => poly1 l (fun k => e i j k) w) v) u) := by
  rw [PS3.base_ok h] at hs
  cases hs
  simp only [evaluateDerivativeYUnitZunitPredefined, upTo_len]
  rw [collect_ok _ (fun i hi => hc.rowD h B v hi)]
  simp only [Res.ok_bind, horner_map h.hn, Seg.coefficientDerivative_ok hy, Res.pure_eq]

theorem PS3.preBothUnit_ok (B : Build) (h : Cube b n m l e) (hs : PS3.base b sx sy sz t = .ok s) {c : Mat K} {w : K} (hc : IsCij c n m l e w)
    {x y : K} (hx : sx.dom.Defined x) (hy : sy.dom.Defined y) (u v : K) :
    PS3.evaluateFDfdxDfdyUnitZunitPredefined B s x y u v c =
      .ok (poly1 n (fun i => poly1 m (fun j => poly1 l (fun k => e i j k) w) v) u,
        sx.coef x * dpoly1 n (fun i => poly1 m (fun j => poly1 l (fun k => e i j k) w) v) u,
        sy.coef y * poly1 n (fun i => dpoly1 m (fun j => poly1 l (fun k => e i j k) w) v) u) := by
  rw [PS3.base_ok h] at hs
  cases hs
  simp only [evaluateFDfdxDfdyUnitZunitPredefined, upTo_len, Res.pure_eq]
  rw [collect_ok _ (fun i hi => hc.rowBoth h B v hi)]
  simp only [Res.ok_bind, List.map_map, Function.comp_def, horner_map h.hn, hornerDerivative_map h.hn,
    Seg.coefficientDerivative_ok hx, Seg.coefficientDerivative_ok hy]

theorem PS3.fields (h : Cube b n m l e) (hs : PS3.base b sx sy sz t = .ok s) : s.m_x = sx ∧ s.m_y = sy ∧ s.m_z = sz := by
  rw [PS3.base_ok h] at hs
  cases hs
  exact ⟨rfl, rfl, rfl⟩

end values

end MU
