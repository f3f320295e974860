import Verif.Spec.Lipschitz
import Verif.Lemmas.LinterpCube

set_option linter.unusedSectionVars false

/-!
# The linear interpolants vary no faster than the data
-/

namespace MU.NDInterp
open Spec

variable {K : Type} [Field K] [LinearOrder K] [IsStrictOrderedRing K]

theorem nodes_lipschitz {g : List K} {p : Nat → K} {L : K}
    (hp : ∀ i a b, g[i]? = some a → g[i + 1]? = some b → |p (i + 1) - p i| ≤ L * (b - a)) (k : Nat) :
    ∀ {i : Nat} {a b : K}, g[i]? = some a → g[i + k]? = some b → |p (i + k) - p i| ≤ L * (b - a) := by
  induction k with
  | zero => intro i a b h0 h1; rw [Nat.add_zero, h0] at h1; cases h1; simp
  | succ k ih =>
    intro i a b h0 h1
    have hl := (List.getElem?_eq_some_iff.mp h1).1
    have hm : g[i + k]? = some (g[i + k]'(by omega)) := List.getElem?_eq_getElem _
    have e1 := ih h0 hm
    have e2 := hp (i + k) _ _ hm h1
    have : p (i + (k + 1)) - p i = (p (i + k + 1) - p (i + k)) + (p (i + k) - p i) := by rw [← Nat.add_assoc]; ring
    rw [this]
    refine (abs_add_le _ _).trans ((add_le_add e2 e1).trans (le_of_eq ?_))
    ring

theorem nodes_lipschitz' {g : List K} {p : Nat → K} {L : K}
    (hp : ∀ i a b, g[i]? = some a → g[i + 1]? = some b → |p (i + 1) - p i| ≤ L * (b - a)) {i j : Nat} (hij : i ≤ j) {a b : K}
    (h0 : g[i]? = some a) (h1 : g[j]? = some b) : |p j - p i| ≤ L * (b - a) := by
  obtain ⟨k, rfl⟩ := Nat.exists_eq_add_of_le hij
  exact nodes_lipschitz hp k h0 h1

theorem cell_lipschitz {a b x u v L : K} (hab : a < b) (h : |v - u| ≤ L * (b - a)) (h0 : a ≤ x) (h1 : x ≤ b) :
    |u + (x - a) / (b - a) * (v - u) - u| ≤ L * (x - a) ∧ |v - (u + (x - a) / (b - a) * (v - u))| ≤ L * (b - x) := by
  have hd : 0 < b - a := sub_pos.2 hab
  have e1 : u + (x - a) / (b - a) * (v - u) - u = (x - a) / (b - a) * (v - u) := by ring
  have e2 : v - (u + (x - a) / (b - a) * (v - u)) = (b - x) / (b - a) * (v - u) := by field_simp; ring
  have f1 : L * (x - a) = (x - a) / (b - a) * (L * (b - a)) := by field_simp
  have f2 : L * (b - x) = (b - x) / (b - a) * (L * (b - a)) := by field_simp
  have g1 : 0 ≤ (x - a) / (b - a) := div_nonneg (by linarith) hd.le
  have g2 : 0 ≤ (b - x) / (b - a) := div_nonneg (by linarith) hd.le
  constructor
  · rw [e1, abs_mul, abs_of_nonneg g1, f1]
    exact mul_le_mul_of_nonneg_left h g1
  · rw [e2, abs_mul, abs_of_nonneg g2, f2]
    exact mul_le_mul_of_nonneg_left h g2

theorem abs_sub_trans {a b c p q : K} (h1 : |b - a| ≤ p) (h2 : |c - b| ≤ q) : |c - a| ≤ p + q := by
  rw [show c - a = (b - a) + (c - b) by ring]
  exact (abs_add_le _ _).trans (add_le_add h1 h2)

theorem AxisRes.lipschitz_le {g : List K} (hinc : g.Pairwise (· < ·)) {x x' y y' : K} {c c' : Int} {lo hi lo' hi' : Nat}
    (h : AxisRes g x c y lo hi) (h' : AxisRes g x' c' y' lo' hi') {p : Nat → K} {L : K} (hL : 0 ≤ L)
    (hp : ∀ i a b, g[i]? = some a → g[i + 1]? = some b → |p (i + 1) - p i| ≤ L * (b - a)) (hx : x ≤ x') :
    |(p lo' + y' * (p hi' - p lo')) - (p lo + y * (p hi - p lo))| ≤ L * (x' - x) := by
  cases h with
  | below a h0 h1 =>
    cases h' with
    | below a' h0' h1' => simpa using mul_nonneg hL (sub_nonneg.2 hx)
    | above b h0' h1' =>
      have := nodes_lipschitz' hp (Nat.zero_le _) h0 h0'
      simp only [one_mul, zero_mul, sub_self, add_zero]
      exact this.trans (mul_le_mul_of_nonneg_left (by linarith) hL)
    | inside lo' a' b' h0' h1' ha' hb' =>
      have e1 := nodes_lipschitz' hp (Nat.zero_le _) h0 h0'
      have e2 := (cell_lipschitz (lt_of_le_of_lt ha' hb') (hp _ _ _ h0' h1') ha' hb'.le).1
      simp only [sub_self, mul_zero, add_zero]
      refine (abs_sub_trans e1 e2).trans ?_
      rw [← mul_add]
      exact mul_le_mul_of_nonneg_left (by linarith) hL
  | above b h0 h1 =>
    cases h' with
    | below a' h0' h1' =>
      exact absurd (getElem?_le hinc h0' h0 (Nat.zero_le _)) (not_le.2 (lt_of_le_of_lt h1 (lt_of_le_of_lt hx h1')))
    | above b' h0' h1' => simpa using mul_nonneg hL (sub_nonneg.2 hx)
    | inside lo' a' b' h0' h1' ha' hb' =>
      have hl := (List.getElem?_eq_some_iff.mp h1').1
      exact absurd (getElem?_le hinc h1' h0 (by omega)) (not_le.2 (lt_of_le_of_lt (h1.trans hx) hb'))
  | inside lo a b h0 h1 ha hb =>
    have hl := (List.getElem?_eq_some_iff.mp h1).1
    have hab := lt_of_le_of_lt ha hb
    have hcell := hp _ _ _ h0 h1
    cases h' with
    | below a' h0' h1' =>
      exact absurd (getElem?_le hinc h0' h0 (Nat.zero_le _)) (not_le.2 (lt_of_le_of_lt (ha.trans hx) h1'))
    | above b' h0' h1' =>
      have e1 := (cell_lipschitz hab hcell ha hb.le).2
      have e2 := nodes_lipschitz' hp (show lo + 1 ≤ g.length - 1 by omega) h1 h0'
      simp only [zero_mul, add_zero]
      refine (abs_sub_trans e1 e2).trans ?_
      rw [← mul_add]
      exact mul_le_mul_of_nonneg_left (by linarith) hL
    | inside lo' a' b' h0' h1' ha' hb' =>
      have hab' := lt_of_le_of_lt ha' hb'
      have hcell' := hp _ _ _ h0' h1'
      rcases Nat.lt_trichotomy lo lo' with hc | hc | hc
      · have e1 := (cell_lipschitz hab hcell ha hb.le).2
        have e2 := nodes_lipschitz' hp (show lo + 1 ≤ lo' by omega) h1 h0'
        have e3 := (cell_lipschitz hab' hcell' ha' hb'.le).1
        refine (abs_sub_trans (abs_sub_trans e1 e2) e3).trans ?_
        rw [← mul_add, ← mul_add]
        exact mul_le_mul_of_nonneg_left (by linarith) hL
      · subst hc
        rw [h0] at h0'
        rw [h1] at h1'
        cases h0'; cases h1'
        have hd : 0 < b - a := sub_pos.2 hab
        have e1 : p lo + (x' - a) / (b - a) * (p (lo + 1) - p lo) - (p lo + (x - a) / (b - a) * (p (lo + 1) - p lo)) =
          (x' - x) / (b - a) * (p (lo + 1) - p lo) := by field_simp; ring
        have g1 : 0 ≤ (x' - x) / (b - a) := div_nonneg (by linarith) hd.le
        rw [e1, abs_mul, abs_of_nonneg g1, show L * (x' - x) = (x' - x) / (b - a) * (L * (b - a)) by field_simp]
        exact mul_le_mul_of_nonneg_left hcell g1
      · exact absurd (getElem?_le hinc h1' h0 (by omega)) (not_le.2 (lt_of_le_of_lt (ha.trans hx) hb'))

theorem AxisRes.lipschitz {g : List K} (hinc : g.Pairwise (· < ·)) {x x' y y' : K} {c c' : Int} {lo hi lo' hi' : Nat}
    (h : AxisRes g x c y lo hi) (h' : AxisRes g x' c' y' lo' hi') {p : Nat → K} {L : K} (hL : 0 ≤ L)
    (hp : ∀ i a b, g[i]? = some a → g[i + 1]? = some b → |p (i + 1) - p i| ≤ L * (b - a)) :
    |(p lo + y * (p hi - p lo)) - (p lo' + y' * (p hi' - p lo'))| ≤ L * |x - x'| := by
  rcases le_total x x' with hx | hx
  · rw [abs_sub_comm, abs_sub_comm x, abs_of_nonneg (sub_nonneg.2 hx)]
    exact h.lipschitz_le hinc h' hL hp hx
  · rw [abs_of_nonneg (sub_nonneg.2 hx)]
    exact h'.lipschitz_le hinc h hL hp hx

theorem AxisRes.det {g : List K} (hinc : g.Pairwise (· < ·)) {x y y' : K} {c c' : Int} {lo hi lo' hi' : Nat}
    (h : AxisRes g x c y lo hi) (h' : AxisRes g x c' y' lo' hi') : y = y' ∧ lo = lo' ∧ hi = hi' := by
  cases h with
  | below a h0 h1 =>
    cases h' with
    | below => exact ⟨rfl, rfl, rfl⟩
    | above b' h0' h1' => exact absurd (getElem?_le hinc h0 h0' (Nat.zero_le _)) (not_le.2 (lt_of_le_of_lt h1' h1))
    | inside lo' a' b' h0' h1' ha' hb' => exact absurd (getElem?_le hinc h0 h0' (Nat.zero_le _)) (not_le.2 (lt_of_le_of_lt ha' h1))
  | above b h0 h1 =>
    cases h' with
    | below a' h0' h1' => exact absurd (getElem?_le hinc h0' h0 (Nat.zero_le _)) (not_le.2 (lt_of_le_of_lt h1 h1'))
    | above => exact ⟨rfl, rfl, rfl⟩
    | inside lo' a' b' h0' h1' ha' hb' =>
      have hl := (List.getElem?_eq_some_iff.mp h1').1
      exact absurd (getElem?_le hinc h1' h0 (by omega)) (not_le.2 (lt_of_le_of_lt h1 hb'))
  | inside lo a b h0 h1 ha hb =>
    have hl := (List.getElem?_eq_some_iff.mp h1).1
    cases h' with
    | below a' h0' h1' => exact absurd (getElem?_le hinc h0' h0 (Nat.zero_le _)) (not_le.2 (lt_of_le_of_lt ha h1'))
    | above b' h0' h1' => exact absurd (getElem?_le hinc h1 h0' (by omega)) (not_le.2 (lt_of_le_of_lt h1' hb))
    | inside lo' a' b' h0' h1' ha' hb' =>
      have e1 : lo' ≤ lo := by
        by_contra hc
        exact absurd (getElem?_le hinc h1 h0' (by omega)) (not_le.2 (lt_of_le_of_lt ha' hb))
      have e2 : lo ≤ lo' := by
        by_contra hc
        exact absurd (getElem?_le hinc h1' h0 (by omega)) (not_le.2 (lt_of_le_of_lt ha hb'))
      have : lo = lo' := by omega
      subst this
      rw [h0] at h0'; rw [h1] at h1'
      cases h0'; cases h1'
      exact ⟨rfl, rfl, rfl⟩

theorem AxesRes.det {grids : List (List K)} (hinc : ∀ g ∈ grids, g.Pairwise (· < ·)) {x : List K} {cs cs' : List Int} {ys ys' : List K}
    {ws ws' : List (Nat × Nat × K)} (h : AxesRes grids x cs ys ws) (h' : AxesRes grids x cs' ys' ws') : ws = ws' := by
  induction h generalizing cs' ys' ws' with
  | nil => cases h'; rfl
  | @cons g gs x xs c cs y ys lo hi ws h1 h2 ih =>
    cases h' with
    | @cons _ _ _ _ c' cs' y' ys' lo' hi' ws' h1' h2' =>
      obtain ⟨rfl, rfl, rfl⟩ := h1.det (hinc g (by simp)) h1'
      rw [ih (fun g' h' => hinc g' (by simp [h'])) h2']

theorem cube_sub (ws : List (Nat × Nat × K)) (F G : List Nat → K) : cube ws (fun is => F is - G is) = cube ws F - cube ws G := by
  induction ws generalizing F G with
  | nil => rfl
  | cons w ws ih => obtain ⟨lo, hi, y⟩ := w; simp only [cube, ih]; ring

/-- Data that differ little give interpolants that differ little. -/
theorem cube_stable {grids : List (List K)} {x : List K} {cs : List Int} {ys : List K} {ws : List (Nat × Nat × K)}
    (h : AxesRes grids x cs ys ws) {F G : List Nat → K} {ε : K} (hFG : ∀ idx, Inside idx (grids.map List.length) → |F idx - G idx| ≤ ε) :
    |cube ws F - cube ws G| ≤ ε := by
  rw [← cube_sub, abs_le]
  exact cube_bounds h (fun is => F is - G is) (fun is hi => (abs_le.1 (hFG is hi)).1) (fun is hi => (abs_le.1 (hFG is hi)).2)

theorem abs_convex_le {y u v E : K} (h0 : 0 ≤ y) (h1 : y ≤ 1) (hu : |u| ≤ E) (hv : |v| ≤ E) : |u + y * (v - u)| ≤ E := by
  rw [abs_le] at *
  constructor <;> nlinarith

theorem cube_lipschitz {grids : List (List K)} (hinc : ∀ g ∈ grids, g.Pairwise (· < ·)) {x x' : List K} {cs cs' : List Int} {ys ys' : List K}
    {ws ws' : List (Nat × Nat × K)} (h : AxesRes grids x cs ys ws) (h' : AxesRes grids x' cs' ys' ws') {Ls : List K} {F : List Nat → K}
    (hF : LipschitzData grids Ls F) : |cube ws F - cube ws' F| ≤ weightedDistance Ls x x' := by
  induction h generalizing x' cs' ys' ws' Ls F with
  | nil =>
    cases h'
    cases Ls with
    | nil => simp [cube, weightedDistance]
    | cons L Ls => simp [LipschitzData] at hF
  | @cons g gs x xs c cs y ys lo hi ws h1 h2 ih =>
    cases Ls with
    | nil => simp [LipschitzData] at hF
    | cons L Ls =>
      obtain ⟨hL, hF1, hF2⟩ := hF
      cases h' with
      | @cons _ _ x' xs' c' cs' y' ys' lo' hi' ws' h1' h2' =>
        have ih := fun j hj => ih (fun g' h' => hinc g' (by simp [h'])) h2' (hF2 j hj)
        have e1 := h1.lipschitz (hinc g (by simp)) h1' (p := fun j => cube ws (fun is => F (j :: is))) hL
          (fun i a b ha hb => cube_stable h2 (fun is hi => hF1 i a b ha hb is hi))
        have e2 := abs_convex_le h1'.frac.1 h1'.frac.2 (ih lo' h1'.lo_lt) (ih hi' h1'.hi_lt)
        simp only [cube, weightedDistance]
        have := (abs_add_le _ _).trans (add_le_add e1 e2)
        refine le_of_eq_of_le (congrArg abs ?_) this
        ring

end MU.NDInterp
