import Verif.Lemmas.LinterpCube
import Verif.Lemmas.RegularGridHistory
import Verif.Lemmas.Lipschitz
import Verif.Spec.Trend
import Mathlib.Tactic.Linarith
import Mathlib.Tactic.LinearCombination

set_option linter.unusedSectionVars false
set_option linter.unusedSimpArgs false

/-! Linear interpolation at two points compared: the weights of the nodes at the two points are the marginals of weights on pairs of nodes in the same order as the points. -/

namespace MU.NDInterp
open Spec

variable {K : Type} [Field K] [LinearOrder K] [IsStrictOrderedRing K]

/-- Linear interpolation of `A` along an axis. -/
def lerp (y : K) (lo hi : Nat) (A : Nat → K) : K := A lo + y * (A hi - A lo)

theorem AxisRes.order {g : List K} {x y : K} {c : Int} {lo hi : Nat} (h : AxisRes g x c y lo hi) : lo ≤ hi := by
  cases h <;> omega

/-- Two points in order are in the same cell or the second uses only nodes after those of the first. -/
theorem AxisRes.cells {g : List K} (hinc : g.Pairwise (· < ·)) {x x' y y' : K} {c c' : Int} {lo hi lo' hi' : Nat} (hxx : x ≤ x')
    (h : AxisRes g x c y lo hi) (h' : AxisRes g x' c' y' lo' hi') : (lo = lo' ∧ hi = hi' ∧ y ≤ y') ∨ hi ≤ lo' := by
  have hl := h.hi_lt
  cases h' with
  | above b h0 hx => right; omega
  | below a h0 hx =>
    cases h with
    | below a' h0' hx' => right; omega
    | above b h1 hx' => exact absurd (getElem?_le hinc h0 h1 (Nat.zero_le _)) (not_le.2 (lt_of_le_of_lt (hx'.trans hxx) hx))
    | inside c a' b' h1 h2 ha hb => exact absurd (getElem?_le hinc h0 h1 (Nat.zero_le _)) (not_le.2 (lt_of_le_of_lt (ha.trans hxx) hx))
  | inside c a b h1 h2 ha hb =>
    cases h with
    | below a' h0' hx' => right; omega
    | above b' h0 hx' =>
      have hl' := (List.getElem?_eq_some_iff.mp h2).1
      exact absurd (getElem?_le hinc h2 h0 (by omega)) (not_le.2 (lt_of_le_of_lt (hx'.trans hxx) hb))
    | inside d a' b' h3 h4 ha' hb' =>
      rcases Nat.lt_trichotomy lo lo' with hd | hd | hd
      · right; omega
      · left
        subst hd
        rw [h1] at h3; rw [h2] at h4
        cases h3; cases h4
        refine ⟨rfl, rfl, ?_⟩
        exact div_le_div_of_nonneg_right (by linarith) (by linarith)
      · exact absurd (getElem?_le hinc h2 h3 (by omega)) (not_le.2 (lt_of_le_of_lt (ha'.trans hxx) hb))

/-- Weights on pairs of nodes in order. -/
theorem couple {g : List K} (hinc : g.Pairwise (· < ·)) {x x' y y' : K} {c c' : Int} {lo hi lo' hi' : Nat} (hxx : x ≤ x')
    (h : AxisRes g x c y lo hi) (h' : AxisRes g x' c' y' lo' hi') :
    ∃ L : List (K × Nat × Nat), (∀ t ∈ L, 0 ≤ t.1 ∧ t.2.1 ≤ t.2.2 ∧ t.2.2 < g.length) ∧
      (∀ A A' : Nat → K, lerp y lo hi A - lerp y' lo' hi' A' = (L.map (fun t => t.1 * (A t.2.1 - A' t.2.2))).sum) := by
  obtain ⟨y0, y1⟩ := h.frac
  obtain ⟨z0, z1⟩ := h'.frac
  have hl := h.order
  have hl' := h'.order
  have hh := h'.hi_lt
  have hh0 := h'.lo_lt
  rcases h.cells hinc hxx h' with ⟨rfl, rfl, hy⟩ | hc
  · refine ⟨[(1 - y', lo, lo), (y' - y, lo, hi), (y, hi, hi)], ?_, ?_⟩
    · simp only [List.mem_cons, List.not_mem_nil, or_false]
      rintro t (rfl | rfl | rfl)
      · exact ⟨sub_nonneg.2 z1, le_rfl, hh0⟩
      · exact ⟨sub_nonneg.2 hy, hl, hh⟩
      · exact ⟨y0, le_rfl, hh⟩
    · intro A A'
      simp only [lerp, List.map_cons, List.map_nil, List.sum_cons, List.sum_nil]
      ring
  · refine ⟨[((1 - y) * (1 - y'), lo, lo'), ((1 - y) * y', lo, hi'), (y * (1 - y'), hi, lo'), (y * y', hi, hi')], ?_, ?_⟩
    · have e1 := sub_nonneg.2 y1
      have e2 := sub_nonneg.2 z1
      simp only [List.mem_cons, List.not_mem_nil, or_false]
      rintro t (rfl | rfl | rfl | rfl)
      · exact ⟨mul_nonneg e1 e2, by simp only; omega, hh0⟩
      · exact ⟨mul_nonneg e1 z0, by simp only; omega, hh⟩
      · exact ⟨mul_nonneg y0 e2, by simp only; omega, hh0⟩
      · exact ⟨mul_nonneg y0 z0, by simp only; omega, hh⟩
    · intro A A'
      simp only [lerp, List.map_cons, List.map_nil, List.sum_cons, List.sum_nil]
      ring

theorem sum_le_of {L : List (K × Nat × Nat)} {f f' : Nat → Nat → K} (h : ∀ t ∈ L, 0 ≤ t.1 ∧ f t.2.1 t.2.2 ≤ f' t.2.1 t.2.2) :
    (L.map (fun t => t.1 * f t.2.1 t.2.2)).sum ≤ (L.map (fun t => t.1 * f' t.2.1 t.2.2)).sum := by
  induction L with
  | nil => simp
  | cons t L ih =>
    have h1 := ih (fun t ht => h t (by simp [ht]))
    obtain ⟨h2, h3⟩ := h t (by simp)
    simp only [List.map_cons, List.sum_cons]
    have := mul_le_mul_of_nonneg_left h3 h2
    linarith

/-- The interpolated coordinate of a point is the coordinate moved into the box. -/
theorem AxisRes.coord_bounds {g : List K} (hinc : g.Pairwise (· < ·)) {x y : K} {c : Int} {lo hi : Nat} (h : AxisRes g x c y lo hi) {a b : K}
    (ha : g[0]? = some a) (hb : g[g.length - 1]? = some b) : lerp y lo hi (fun i => g.getD i 0) = max a (min x b) := by
  have hab := getElem?_le hinc ha hb (Nat.zero_le _)
  have hn := h
  cases h with
  | below a' h0 hx =>
    rw [ha] at h0; cases h0
    rw [min_eq_left (hx.le.trans hab), max_eq_left hx.le]
    simp [lerp, List.getD, ha]
  | above b' h0 hx =>
    rw [hb] at h0; cases h0
    rw [min_eq_right hx, max_eq_right hab]
    simp [lerp, List.getD, hb]
  | inside c a' b' h0 h1 ha' hb' =>
    have hl := (List.getElem?_eq_some_iff.mp h1).1
    have e1 := getElem?_le hinc ha h0 (Nat.zero_le _)
    have e2 := getElem?_le hinc h1 hb (by omega)
    rw [min_eq_left (hb'.le.trans e2), max_eq_right (e1.trans ha')]
    have hd : b' - a' ≠ 0 := (sub_pos.2 (lt_of_le_of_lt ha' hb')).ne'
    simp only [lerp, List.getD, h0, h1, Option.getD_some]
    rw [div_mul_cancel₀ _ hd]; ring

/-- Data that follow a trend are interpolated into values that do. -/
theorem lerp_trend {g : List K} (hinc : g.Pairwise (· < ·)) {x x' y y' : K} {c c' : Int} {lo hi lo' hi' : Nat} {d : Trend} (hxx : d.Moves x x')
    (h : AxisRes g x c y lo hi) (h' : AxisRes g x' c' y' lo' hi') {A A' : Nat → K}
    (hA : ∀ i i' a a', g[i]? = some a → g[i']? = some a' → d.Moves a a' → A i ≤ A' i') : lerp y lo hi A ≤ lerp y' lo' hi' A' := by
  have key : ∀ {x x' y y' : K} {c c' : Int} {lo hi lo' hi' : Nat} (_ : x ≤ x') (_ : AxisRes g x c y lo hi) (_ : AxisRes g x' c' y' lo' hi')
      {B B' : Nat → K} (_ : ∀ i i' a a', g[i]? = some a → g[i']? = some a' → a ≤ a' → B i - B' i' ≤ 0), lerp y lo hi B - lerp y' lo' hi' B' ≤ 0 := by
    intro x x' y y' c c' lo hi lo' hi' hxx h h' B B' hB
    obtain ⟨T, t1, t2⟩ := couple hinc hxx h h'
    have hs := sum_le_of (L := T) (f := fun i i' => B i - B' i') (f' := fun _ _ => 0) (by
      intro t ht
      obtain ⟨w0, w1, w2⟩ := t1 t ht
      have g1 : g[t.2.1]? = some (g[t.2.1]'(by omega)) := List.getElem?_eq_getElem _
      have g2 : g[t.2.2]? = some (g[t.2.2]'(by omega)) := List.getElem?_eq_getElem _
      exact ⟨w0, hB _ _ _ _ g1 g2 (getElem?_le hinc g1 g2 w1)⟩)
    rw [← t2 B B'] at hs
    simpa using hs
  cases d with
  | up => exact sub_nonpos.1 (key hxx h h' (fun i i' a a' h1 h2 h3 => sub_nonpos.2 (hA i i' a a' h1 h2 h3)))
  | down =>
    have := key hxx h' h (B := fun i => - A' i) (B' := fun i => - A i) (fun i i' a a' h1 h2 h3 => by
      have := hA i' i a' a h2 h1 h3
      linarith)
    have e : lerp y' lo' hi' (fun i => - A' i) - lerp y lo hi (fun i => - A i) = lerp y lo hi A - lerp y' lo' hi' A' := by
      unfold lerp; ring
    rw [e] at this
    exact sub_nonpos.1 this
  | same =>
    obtain rfl : x = x' := hxx
    obtain ⟨rfl, rfl, rfl⟩ := h.det hinc h'
    have g1 : g[lo]? = some (g[lo]'h.lo_lt) := List.getElem?_eq_getElem _
    have g2 : g[hi]? = some (g[hi]'h.hi_lt) := List.getElem?_eq_getElem _
    have e1 := hA lo lo _ _ g1 g1 rfl
    have e2 := hA hi hi _ _ g2 g2 rfl
    obtain ⟨y0, y1⟩ := h.frac
    have f1 := mul_le_mul_of_nonneg_left e1 (sub_nonneg.2 y1)
    have f2 := mul_le_mul_of_nonneg_left e2 y0
    unfold lerp
    linarith

theorem cube_trend {grids : List (List K)} (hinc : ∀ g ∈ grids, g.Pairwise (· < ·)) {x x' : List K} {cs cs' : List Int}
    {ys ys' : List K} {ws ws' : List (Nat × Nat × K)} (h : AxesRes grids x cs ys ws) (h' : AxesRes grids x' cs' ys' ws') {ds : List Trend}
    {F F' : List Nat → K} (hF : ∀ i p i' p', IsNode grids i p → IsNode grids i' p' → MovesAlong ds p p' → F i ≤ F' i')
    (hx : MovesAlong ds x x') : cube ws F ≤ cube ws' F' := by
  induction h generalizing x' cs' ys' ws' ds F F' with
  | nil =>
    cases h'
    exact hF [] [] [] [] .nil .nil hx
  | @cons g gs x xs c cs y ys lo hi ws h1 h2 ih =>
    cases h' with
    | @cons _ _ x' xs' c' cs' y' ys' lo' hi' ws' h1' h2' =>
      cases ds with
      | nil => exact hx.elim
      | cons d ds =>
        exact lerp_trend (hinc g (by simp)) hx.1 h1 h1' (A := fun i => cube ws (fun is => F (i :: is)))
          (A' := fun i => cube ws' (fun is => F' (i :: is))) (fun i i' a a' hi hi' hd =>
            ih (fun g h => hinc g (by simp [h])) h2' (fun j p j' p' hj hj' hp => hF _ _ _ _ (.cons hi hj) (.cons hi' hj') ⟨hd, hp⟩) hx.2)

end MU.NDInterp
