import Verif.Lemmas.Linterp
import Verif.Lemmas.Interp1d

set_option linter.unusedSectionVars false
set_option linter.unusedSimpArgs false

/-! Properties of the iterated linear interpolation `cube`. -/

namespace MU.NDInterp
open Spec

variable {K : Type} [Field K] [LinearOrder K] [IsStrictOrderedRing K]

theorem getElem?_lt {g : List K} (hinc : g.Pairwise (· < ·)) {i j : Nat} {a b : K} (hi : g[i]? = some a) (hj : g[j]? = some b)
    (h : i < j) : a < b := by
  obtain ⟨hi', rfl⟩ := List.getElem?_eq_some_iff.mp hi
  obtain ⟨hj', rfl⟩ := List.getElem?_eq_some_iff.mp hj
  exact getElem_lt_of_pairwise hinc h hj'

theorem getElem?_le {g : List K} (hinc : g.Pairwise (· < ·)) {i j : Nat} {a b : K} (hi : g[i]? = some a) (hj : g[j]? = some b)
    (h : i ≤ j) : a ≤ b := by
  obtain ⟨hi', rfl⟩ := List.getElem?_eq_some_iff.mp hi
  obtain ⟨hj', rfl⟩ := List.getElem?_eq_some_iff.mp hj
  exact getElem_le_of_pairwise hinc h hj'

theorem AxisRes.node {g : List K} (hinc : g.Pairwise (· < ·)) {x y : K} {c : Int} {lo hi : Nat} (h : AxisRes g x c y lo hi)
    {i : Nat} (hi' : g[i]? = some x) (p : Nat → K) : p lo + y * (p hi - p lo) = p i := by
  have hil := (List.getElem?_eq_some_iff.mp hi').1
  cases h with
  | below a h0 hx => exact absurd (getElem?_le hinc h0 hi' (Nat.zero_le _)) (not_le.mpr hx)
  | above b h0 hx =>
    have : i = g.length - 1 := by
      by_contra hc
      exact absurd (getElem?_lt hinc hi' h0 (by omega)) (not_lt.mpr hx)
    subst this; ring
  | inside lo a b h0 h1 ha hb =>
    have h2 : i ≤ lo := by
      by_contra hc
      exact absurd (getElem?_le hinc h1 hi' (by omega)) (not_le.mpr hb)
    have h3 : i = lo := by
      by_contra hc
      exact absurd (getElem?_lt hinc hi' h0 (by omega)) (not_lt.mpr ha)
    subst h3
    rw [h0] at hi'
    cases hi'
    simp

theorem AxisRes.bracket {g : List K} (hinc : g.Pairwise (· < ·)) {x y : K} {c : Int} {lo hi : Nat} (h : AxisRes g x c y lo hi)
    {i : Nat} {a' b' : K} (hi0 : g[i]? = some a') (hi1 : g[i + 1]? = some b') (ha' : a' ≤ x) (hb' : x ≤ b') (p : Nat → K) :
    p lo + y * (p hi - p lo) = line a' (p i) b' (p (i + 1)) x := by
  have hil := (List.getElem?_eq_some_iff.mp hi1).1
  have hab := getElem?_lt hinc hi0 hi1 (Nat.lt_succ_self _)
  unfold line
  simp only [smul_eq_mul]
  cases h with
  | below a h0 hx => exact absurd (getElem?_le hinc h0 hi0 (Nat.zero_le _)) (not_le.mpr (lt_of_le_of_lt ha' hx))
  | above b h0 hx =>
    have hb := getElem?_le hinc hi1 h0 (by omega)
    have hxb : x = b' := le_antisymm hb' (le_trans hb hx)
    have : i + 1 = g.length - 1 := by
      by_contra hc
      exact absurd (getElem?_lt hinc hi1 h0 (by omega)) (not_lt.mpr (hxb ▸ hx))
    subst hxb
    rw [div_self (sub_pos.mpr hab).ne', this]; ring
  | inside lo a b h0 h1 ha hb =>
    have h2 : i ≤ lo := by
      by_contra hc
      exact absurd (getElem?_le hinc h1 hi0 (by omega)) (not_le.mpr (lt_of_le_of_lt ha' hb))
    have h3 : lo ≤ i + 1 := by
      by_contra hc
      exact absurd (getElem?_lt hinc hi1 h0 (by omega)) (not_lt.mpr (le_trans ha hb'))
    rcases Nat.lt_or_ge i lo with h4 | h4
    · have h5 : lo = i + 1 := by omega
      subst h5
      rw [h0] at hi1
      cases hi1
      have hxe := le_antisymm hb' ha
      subst hxe
      rw [div_self (sub_pos.mpr hab).ne']; simp
    · have : lo = i := by omega
      subst this
      rw [h0] at hi0
      rw [h1] at hi1
      cases hi0; cases hi1; rfl

theorem AxisRes.clamp {g : List K} (hinc : g.Pairwise (· < ·)) {x x' y y' : K} {c c' : Int} {lo hi lo' hi' : Nat}
    (h : AxisRes g x c y lo hi) (h' : AxisRes g x' c' y' lo' hi') {a b : K} (ha : g.head? = some a) (hb : g.getLast? = some b)
    (hx' : x' = max a (min x b)) (p : Nat → K) :
    p lo + y * (p hi - p lo) = p lo' + y' * (p hi' - p lo') := by
  have ha0 : g[0]? = some a := by rw [← List.head?_eq_getElem?]; exact ha
  have hb0 : g[g.length - 1]? = some b := by rw [← List.getLast?_eq_getElem?]; exact hb
  have hab : a ≤ b := getElem?_le hinc ha0 hb0 (Nat.zero_le _)
  rcases lt_or_ge x a with h1 | h1
  · have : x' = a := by rw [hx', min_eq_left (le_trans h1.le hab), max_eq_left h1.le]
    subst this
    rw [h'.node hinc ha0 p]
    cases h with
    | below a0 h0 hx => ring
    | above b0 h0 hx =>
      rw [hb0] at h0; cases h0
      exact absurd h1 (not_lt.mpr (le_trans hab hx))
    | inside c a0 b0 h0 _ h2 _ =>
      exact absurd (getElem?_le hinc ha0 h0 (Nat.zero_le _)) (not_le.mpr (lt_of_le_of_lt h2 h1))
  · rcases lt_or_ge b x with h2 | h2
    · have : x' = b := by rw [hx', min_eq_right h2.le, max_eq_right hab]
      subst this
      rw [h'.node hinc hb0 p]
      cases h with
      | below a0 h0 hx =>
        rw [ha0] at h0; cases h0
        exact absurd h1 (not_le.mpr hx)
      | above b0 h0 hx => ring
      | inside c a0 b0 h0 h3 h4 h5 =>
        have hl := (List.getElem?_eq_some_iff.mp h3).1
        exact absurd (getElem?_le hinc h3 hb0 (by omega)) (not_le.mpr (lt_trans h2 h5))
    · have : x' = x := by rw [hx', min_eq_left h2, max_eq_right h1]
      subst this
      -- the same coordinate: the result of `axis` is determined
      cases h with
      | below a0 h0 hx => rw [ha0] at h0; cases h0; exact absurd h1 (not_le.mpr hx)
      | above b0 h0 hx =>
        rw [hb0] at h0; cases h0
        have : x' = b := le_antisymm h2 hx
        rw [h'.node hinc (this ▸ hb0) p]; ring
      | inside c a0 b0 h0 h3 h4 h5 =>
        have := h'.bracket hinc h0 h3 h4 h5.le p
        rw [this]; simp [line]

theorem cube_congr (ws : List (Nat × Nat × K)) {F G : List Nat → K} (h : ∀ is, F is = G is) : cube ws F = cube ws G := by
  have : F = G := funext h
  rw [this]

theorem cube_node {grids : List (List K)} (hinc : ∀ g ∈ grids, g.Pairwise (· < ·)) {x : List K} {cs : List Int} {ys : List K}
    {ws : List (Nat × Nat × K)} (h : AxesRes grids x cs ys ws) {idx : List Nat} (hn : IsNode grids idx x) (F : List Nat → K) :
    cube ws F = F idx := by
  induction h generalizing idx F with
  | nil => cases hn; rfl
  | @cons g gs x xs c cs y ys lo hi ws h1 h2 ih =>
    cases hn with
    | @cons _ _ i is _ _ hi hn =>
      have ih := fun F => ih (fun g' h' => hinc g' (by simp [h'])) hn F
      simp only [cube, ih]
      exact h1.node (hinc g (by simp)) hi (fun j => F (j :: is))

theorem cube_tensor {grids : List (List K)} (hinc : ∀ g ∈ grids, g.Pairwise (· < ·)) {x : List K} {cs : List Int} {ys : List K}
    {ws : List (Nat × Nat × K)} (h : AxesRes grids x cs ys ws) {cell : List (Nat × K × K)} (hn : Brackets grids cell x)
    (F : List Nat → K) : cube ws F = tensor cell F x := by
  induction h generalizing cell F with
  | nil => cases hn; rfl
  | @cons g gs x xs c cs y ys lo hi ws h1 h2 ih =>
    cases hn with
    | @cons _ _ i a b cell _ _ hi0 hi1 ha hb hn =>
      have ih := fun F => ih (fun g' h' => hinc g' (by simp [h'])) hn F
      simp only [cube, ih, tensor]
      exact h1.bracket (hinc g (by simp)) hi0 hi1 ha hb (fun j => tensor cell (fun is => F (j :: is)) xs)

theorem cube_clamp {grids : List (List K)} (hinc : ∀ g ∈ grids, g.Pairwise (· < ·)) {x : List K} {cs : List Int} {ys : List K}
    {ws : List (Nat × Nat × K)} (h : AxesRes grids x cs ys ws) {x' : List K} {cs' : List Int} {ys' : List K}
    {ws' : List (Nat × Nat × K)} (h' : AxesRes grids x' cs' ys' ws') (hc : Clamped grids x x') (F : List Nat → K) :
    cube ws F = cube ws' F := by
  induction h generalizing x' cs' ys' ws' F with
  | nil => cases hc; cases h'; rfl
  | @cons g gs x xs c cs y ys lo hi ws h1 h2 ih =>
    cases hc with
    | @cons _ _ _ _ xs' a b ha hb hc =>
      cases h' with
      | @cons _ _ _ _ c' cs' y' ys' lo' hi' ws' h1' h2' =>
        have ih := fun F => ih (fun g' h' => hinc g' (by simp [h'])) h2' hc F
        simp only [cube, ih]
        exact h1.clamp (hinc g (by simp)) h1' ha hb rfl (fun j => cube ws' (fun is => F (j :: is)))

theorem cube_bounds {grids : List (List K)} {x : List K} {cs : List Int} {ys : List K} {ws : List (Nat × Nat × K)}
    (h : AxesRes grids x cs ys ws) {m M : K} (F : List Nat → K)
    (hm : ∀ idx, Inside idx (grids.map List.length) → m ≤ F idx) (hM : ∀ idx, Inside idx (grids.map List.length) → F idx ≤ M) :
    m ≤ cube ws F ∧ cube ws F ≤ M := by
  induction h generalizing F with
  | nil => exact ⟨hm [] .nil, hM [] .nil⟩
  | @cons g gs x xs c cs y ys lo hi ws h1 h2 ih =>
    obtain ⟨l1, l2⟩ := ih (fun is => F (lo :: is)) (fun is h => hm _ (.cons h1.lo_lt h)) (fun is h => hM _ (.cons h1.lo_lt h))
    obtain ⟨u1, u2⟩ := ih (fun is => F (hi :: is)) (fun is h => hm _ (.cons h1.hi_lt h)) (fun is h => hM _ (.cons h1.hi_lt h))
    obtain ⟨y0, y1⟩ := h1.frac
    simp only [cube]
    generalize cube ws (fun is => F (lo :: is)) = p at *
    generalize cube ws (fun is => F (hi :: is)) = q at *
    have e1 : p + y * (q - p) = (1 - y) * p + y * q := by ring
    rw [e1]
    constructor
    · calc m = (1 - y) * m + y * m := by ring
        _ ≤ _ := add_le_add (mul_le_mul_of_nonneg_left l1 (by linarith)) (mul_le_mul_of_nonneg_left u1 y0)
    · calc _ ≤ (1 - y) * M + y * M := add_le_add (mul_le_mul_of_nonneg_left l2 (by linarith)) (mul_le_mul_of_nonneg_left u2 y0)
        _ = M := by ring

theorem cube_affine {grids : List (List K)} {x : List K} {cs : List Int} {ys : List K}
    {ws : List (Nat × Nat × K)} (h : AxesRes grids x cs ys ws) (hb : InBox grids x) (f : List K → K) (hf : SeparatelyAffine f)
    (before : List K) (F : List Nat → K) (hF : ∀ idx p, IsNode grids idx p → F idx = f (before ++ p)) :
    cube ws F = f (before ++ x) := by
  induction h generalizing F before with
  | nil => exact hF [] [] .nil
  | @cons g gs x xs c cs y ys lo hi ws h1 h2 ih =>
    cases hb with
    | @cons _ _ _ _ a0 b0 ha hb' hax hxb hb =>
      have key : ∀ (j : Nat) (z : K), g[j]? = some z → cube ws (fun is => F (j :: is)) = f (before ++ z :: xs) := by
        intro j z hz
        have := ih hb (before ++ [z]) (fun is => F (j :: is)) (by
          intro idx p hp
          have := hF (j :: idx) (z :: p) (.cons hz hp)
          simpa using this)
        simpa using this
      simp only [cube]
      cases h1 with
      | below a h0 hx =>
        rw [List.head?_eq_getElem?] at ha
        rw [ha] at h0; cases h0
        exact absurd hax (not_le.mpr hx)
      | above b h0 hx =>
        rw [List.getLast?_eq_getElem?] at hb'
        rw [hb'] at h0; cases h0
        have : x = b0 := le_antisymm hxb hx
        subst this
        rw [key _ _ hb']; ring
      | inside c a b h0 h3 h4 h5 =>
        rw [key _ _ h0, key _ _ h3, ← hf before xs a b]
        have hd : b - a ≠ 0 := (sub_pos.mpr (lt_of_le_of_lt h4 h5)).ne'
        rw [div_mul_cancel₀ _ hd]
        congr 3; ring

/-- In a grid with at least two nodes per axis every point of the box is in a cell. -/
theorem exists_brackets {grids : List (List K)} (hinc : ∀ g ∈ grids, g.Pairwise (· < ·)) (h2 : ∀ g ∈ grids, 2 ≤ g.length)
    {x : List K} (hb : InBox grids x) : ∃ cell, Brackets grids cell x := by
  induction hb with
  | nil => exact ⟨[], .nil⟩
  | @cons g gs x xs a b ha hb hax hxb _ ih =>
    obtain ⟨cell, hcell⟩ := ih (fun g' h' => hinc g' (by simp [h'])) (fun g' h' => h2 g' (by simp [h']))
    have hg2 := h2 g (by simp)
    have hne : g ≠ [] := by intro h; simp [h] at hg2
    obtain ⟨c, y, lo, hi, _, hr⟩ := axis_res hne (hinc g (by simp)) x
    rw [List.head?_eq_getElem?] at ha
    rw [List.getLast?_eq_getElem?] at hb
    cases hr with
    | below a' h0 hx => rw [ha] at h0; cases h0; exact absurd hax (not_le.mpr hx)
    | above b' h0 hx =>
      have h3 : g[g.length - 2]? = some (g[g.length - 2]'(by omega)) := List.getElem?_eq_getElem _
      refine ⟨(g.length - 2, _, b) :: cell, .cons h3 (by rw [show g.length - 2 + 1 = g.length - 1 by omega]; exact hb) ?_ hxb hcell⟩
      rw [hb] at h0; cases h0
      exact le_trans (getElem?_le (hinc g (by simp)) h3 hb (by omega)) hx
    | inside lo a' b' h0 h1 h3 h4 => exact ⟨(lo, a', b') :: cell, .cons h0 h1 h3 h4.le hcell⟩

end MU.NDInterp
