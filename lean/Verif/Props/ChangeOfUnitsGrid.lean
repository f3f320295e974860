import Verif.Props.ChangeOfUnits
import Verif.Props.RegularGrid
import Verif.Lemmas.LoadGrid

/-!
# C199 for regular grids of any dimension
-/

set_option linter.unusedSectionVars false

namespace MU

open Spec RGI NDInterp

variable {K : Type} [Field K] [LinearOrder K] [IsStrictOrderedRing K]

/-- The grid and the point in other units: on each axis `t` becomes `a t + b` with a positive `a`. -/
inductive Spec.InUnits : (grids : List (List K)) → (x : List K) → (grids' : List (List K)) → (x' : List K) → Prop
  | nil : InUnits [] [] [] []
  | cons {g gs x xs gs' xs'} {a : K} (b : K) : 0 < a → InUnits gs xs gs' xs' → InUnits (g :: gs) (x :: xs) ((g.map fun t => a * t + b) :: gs') ((a * x + b) :: xs')

theorem AxisRes.units {g : List K} {x y : K} {c : Int} {lo hi : Nat} (h : AxisRes g x c y lo hi) {a : K} (ha : 0 < a) (b : K) :
    AxisRes (g.map fun t => a * t + b) (a * x + b) c y lo hi := by
  have mono : ∀ {u v : K}, u < v → a * u + b < a * v + b := fun h => by nlinarith [mul_lt_mul_of_pos_left h ha]
  have mono' : ∀ {u v : K}, u ≤ v → a * u + b ≤ a * v + b := fun h => by nlinarith [mul_le_mul_of_nonneg_left h ha.le]
  cases h with
  | below p h0 hx => exact .below (a * p + b) (by simp [h0]) (mono hx)
  | above p h0 hx =>
    have := AxisRes.above (g := g.map fun t => a * t + b) (x := a * x + b) (a * p + b) (by simp [h0]) (mono' hx)
    simpa using this
  | inside c p q h0 h1 h2 h3 =>
    have := AxisRes.inside (g := g.map fun t => a * t + b) (x := a * x + b) lo (a * p + b) (a * q + b) (by simp [h0]) (by simp [h1]) (mono' h2) (mono h3)
    rw [show a * x + b - (a * p + b) = a * (x - p) by ring, show a * q + b - (a * p + b) = a * (q - p) by ring, mul_div_mul_left _ _ ha.ne'] at this
    exact this

theorem AxesRes.units {grids grids' : List (List K)} {x x' : List K} (hu : InUnits grids x grids' x') {cs : List Int} {ys : List K}
    {ws : List (Nat × Nat × K)} (h : AxesRes grids x cs ys ws) : AxesRes grids' x' cs ys ws := by
  induction hu generalizing cs ys ws with
  | nil => exact h
  | cons b ha _ ih =>
    cases h with
    | cons h1 h2 => exact .cons (AxisRes.units h1 ha b) (ih h2)

/-- The value found does not depend on the derivation. -/
theorem cube_det {grids : List (List K)} (hg : Axes grids) {x : List K} (hx : x.length = grids.length) {cs cs' : List Int} {ys ys' : List K}
    {ws ws' : List (Nat × Nat × K)} (h : AxesRes grids x cs ys ws) (h' : AxesRes grids x cs' ys' ws') (F : List Nat → K) : cube ws F = cube ws' F := by
  obtain ⟨z, hz, hz'⟩ := exists_clamped hg.nonempty hg.increasing hx
  obtain ⟨cz, yz, wz, -, hr⟩ := axes_res hg.nonempty hg.increasing (x := z) (by
    have := Clamped.len hz
    omega)
  rw [cube_clamp hg.increasing h hr hz F, cube_clamp hg.increasing h' hr hz F]

theorem InUnits.length {grids grids' : List (List K)} {x x' : List K} (hu : InUnits grids x grids' x') :
    x.length = grids.length ∧ x'.length = grids'.length ∧ grids'.length = grids.length ∧ grids'.map List.length = grids.map List.length := by
  induction hu with
  | nil => simp
  | cons b ha _ ih => simp [ih]

theorem InUnits.inBox {grids grids' : List (List K)} {x x' : List K} (hu : InUnits grids x grids' x') : InBox grids' x' ↔ InBox grids x := by
  induction hu with
  | nil => exact ⟨fun _ => .nil, fun _ => .nil⟩
  | @cons g gs x xs gs' xs' a b ha _ ih =>
    have mono' : ∀ {u v : K}, a * u + b ≤ a * v + b ↔ u ≤ v := fun {u v} => by
      rw [add_le_add_iff_right, mul_le_mul_iff_right₀ ha]
    constructor
    · intro h
      cases h with
      | cons h1 h2 h3 h4 h5 =>
        simp only [List.head?_map, List.getLast?_map, Option.map_eq_some_iff] at h1 h2
        obtain ⟨p, hp, rfl⟩ := h1
        obtain ⟨q, hq, rfl⟩ := h2
        exact .cons hp hq (mono'.1 h3) (mono'.1 h4) (ih.1 h5)
    · intro h
      cases h with
      | cons h1 h2 h3 h4 h5 =>
        exact .cons (by rw [List.head?_map, h1]; rfl) (by rw [List.getLast?_map, h2]; rfl) (mono'.2 h3) (mono'.2 h4) (ih.2 h5)

/-- C199: a grid of any dimension in other units (on each axis its own) gives at the converted point what the first grid gives, with and without check of the bounds. -/
theorem C199_grid_units {dim : Nat} {grids grids' : List (List K)} {F : List Nat → K} {s s' : RGI K} (h : Loaded dim grids F s) (h' : Loaded dim grids' F s')
    {x x' : List K} (hu : InUnits grids x grids' x') (bound_check : Bool) : interpolate s' x' bound_check = interpolate s x bound_check := by
  obtain ⟨hg, hd, _, hF, _⟩ := Loaded.fields h
  obtain ⟨hg', hd', _, hF', _⟩ := Loaded.fields h'
  obtain ⟨l1, l2, l3, l4⟩ := InUnits.length hu
  have hf : interpolate s' x' false = interpolate s x false := by
    obtain ⟨cs, ys, ws, hr, he⟩ := interp_cube hg hF l1
    obtain ⟨cs', ys', ws', hr', he'⟩ := interp_cube hg' hF' l2
    rw [interpolate_loaded h, interpolate_loaded h', he, he', cube_det hg' l2 hr' (AxesRes.units hu hr) F]
  cases bound_check with
  | false => exact hf
  | true =>
    obtain ⟨a1, a2⟩ := interpolate_checked h (x := x) (by omega)
    obtain ⟨b1, b2⟩ := interpolate_checked h' (x := x') (by omega)
    by_cases hb : InBox grids x
    · rw [a1 hb, b1 ((InUnits.inBox hu).2 hb), hf]
    · rw [a2 hb, b2 (fun hc => hb ((InUnits.inBox hu).1 hc))]

example : InUnits ([[0, 1, 3], [10, 20]] : List (List ℚ)) [2, 13] [[7, 9, 13], [1 / 2, 3 / 2]] [11, 4 / 5] := by
  have h := InUnits.cons (g := [0, 1, 3]) (x := 2) (a := 2) (7 : ℚ) (by norm_num) (InUnits.cons (g := [10, 20]) (x := 13) (a := 1 / 10) (-1 / 2 : ℚ) (by norm_num) .nil)
  norm_num at h
  exact h

/-! ## Exchange of two axes -/

theorem AxesRes.append {grids₁ grids₂ : List (List K)} {x₁ x₂ : List K} {cs₁ cs₂ : List Int} {ys₁ ys₂ : List K} {ws₁ ws₂ : List (Nat × Nat × K)}
    (h₁ : AxesRes grids₁ x₁ cs₁ ys₁ ws₁) (h₂ : AxesRes grids₂ x₂ cs₂ ys₂ ws₂) :
    AxesRes (grids₁ ++ grids₂) (x₁ ++ x₂) (cs₁ ++ cs₂) (ys₁ ++ ys₂) (ws₁ ++ ws₂) := by
  induction h₁ with
  | nil => exact h₂
  | cons h1 _ ih => exact .cons h1 ih

theorem AxesRes.split {grids₁ grids₂ : List (List K)} {x : List K} {cs : List Int} {ys : List K} {ws : List (Nat × Nat × K)}
    (h : AxesRes (grids₁ ++ grids₂) x cs ys ws) : ∃ x₁ x₂ cs₁ cs₂ ys₁ ys₂ ws₁ ws₂, x = x₁ ++ x₂ ∧ ws = ws₁ ++ ws₂ ∧
      AxesRes grids₁ x₁ cs₁ ys₁ ws₁ ∧ AxesRes grids₂ x₂ cs₂ ys₂ ws₂ := by
  induction grids₁ generalizing x cs ys ws with
  | nil => exact ⟨[], x, [], cs, [], ys, [], ws, rfl, rfl, .nil, h⟩
  | cons g gs ih =>
    cases h with
    | cons h1 h2 =>
      obtain ⟨x₁, x₂, cs₁, cs₂, ys₁, ys₂, ws₁, ws₂, rfl, rfl, h3, h4⟩ := ih h2
      exact ⟨_, x₂, _, cs₂, _, ys₂, _, ws₂, rfl, rfl, .cons h1 h3, h4⟩

theorem cube_swap (ws : List (Nat × Nat × K)) (w w' : Nat × Nat × K) (vs : List (Nat × Nat × K)) {F F' : List Nat → K}
    (hF : ∀ p i j q, p.length = ws.length → F' (p ++ j :: i :: q) = F (p ++ i :: j :: q)) :
    cube (ws ++ w' :: w :: vs) F' = cube (ws ++ w :: w' :: vs) F := by
  induction ws generalizing F F' with
  | nil =>
    obtain ⟨lo, hi, y⟩ := w
    obtain ⟨lo', hi', y'⟩ := w'
    have e : ∀ i j, (fun q => F' (j :: i :: q)) = fun q => F (i :: j :: q) := fun i j => funext fun q => hF [] i j q rfl
    simp only [List.nil_append, cube, e]
    ring
  | cons v ws ih =>
    obtain ⟨lo, hi, y⟩ := v
    have e : ∀ k, cube (ws ++ w' :: w :: vs) (fun is => F' (k :: is)) = cube (ws ++ w :: w' :: vs) (fun is => F (k :: is)) := fun k =>
      ih fun p i j q hp => by simpa using hF (k :: p) i j q (by simp [hp])
    simp only [List.cons_append, cube, e]

theorem inBox_append {gs hs : List (List K)} {x y : List K} (h : x.length = gs.length) : InBox (gs ++ hs) (x ++ y) ↔ InBox gs x ∧ InBox hs y := by
  induction gs generalizing x with
  | nil =>
    have : x = [] := List.length_eq_zero_iff.1 h
    subst this
    exact ⟨fun h => ⟨.nil, h⟩, fun h => h.2⟩
  | cons g gs ih =>
    cases x with
    | nil => simp at h
    | cons a x =>
      have ih := ih (x := x) (by simpa using h)
      constructor
      · intro h
        cases h with
        | cons h1 h2 h3 h4 h5 => exact ⟨.cons h1 h2 h3 h4 (ih.1 h5).1, (ih.1 h5).2⟩
      · rintro ⟨h, h'⟩
        cases h with
        | cons h1 h2 h3 h4 h5 => exact .cons h1 h2 h3 h4 (ih.2 ⟨h5, h'⟩)

theorem inBox_swap {g g' : List K} {hs : List (List K)} {a a' : K} {y : List K} (h : InBox (g :: g' :: hs) (a :: a' :: y)) : InBox (g' :: g :: hs) (a' :: a :: y) := by
  cases h with
  | cons h1 h2 h3 h4 h5 =>
    cases h5 with
    | cons k1 k2 k3 k4 k5 => exact .cons k1 k2 k3 k4 (.cons h1 h2 h3 h4 k5)

theorem axesRes_len {grids : List (List K)} {x : List K} {cs : List Int} {ys : List K} {ws : List (Nat × Nat × K)}
    (h : AxesRes grids x cs ys ws) : x.length = grids.length ∧ ws.length = grids.length := by
  induction h with
  | nil => simp
  | cons _ _ ih => simp [ih]

/-- C199: exchanging two neighbouring axes of a grid (and the coordinates of the point, and the indices of the data) changes nothing, with and without check of the bounds.
Such exchanges give all the orders of the axes. -/
theorem C199_grid_exchange {dim : Nat} {gs hs : List (List K)} {g g' : List K} {F F' : List Nat → K} {s s' : RGI K}
    (h : Loaded dim (gs ++ g :: g' :: hs) F s) (h' : Loaded dim (gs ++ g' :: g :: hs) F' s')
    (hF : ∀ p i j q, p.length = gs.length → F' (p ++ j :: i :: q) = F (p ++ i :: j :: q))
    {x y : List K} {a a' : K} (hx : x.length = gs.length) (hy : y.length = hs.length) (bound_check : Bool) :
    interpolate s' (x ++ a' :: a :: y) bound_check = interpolate s (x ++ a :: a' :: y) bound_check := by
  obtain ⟨hg, hd, _, hF1, _⟩ := Loaded.fields h
  obtain ⟨hg', hd', _, hF2, _⟩ := Loaded.fields h'
  have l1 : (x ++ a :: a' :: y).length = (gs ++ g :: g' :: hs).length := by simp [hx, hy]
  have l2 : (x ++ a' :: a :: y).length = (gs ++ g' :: g :: hs).length := by simp [hx, hy]
  have hf : interpolate s' (x ++ a' :: a :: y) false = interpolate s (x ++ a :: a' :: y) false := by
    obtain ⟨cs, ys, ws, hr, he⟩ := interp_cube hg hF1 l1
    obtain ⟨cs', ys', ws', hr', he'⟩ := interp_cube hg' hF2 l2
    rw [interpolate_loaded h, interpolate_loaded h', he, he']
    obtain ⟨x₁, x₂, cs₁, cs₂, ys₁, ys₂, ws₁, ws₂, e1, e2, r1, r2⟩ := AxesRes.split hr
    obtain ⟨m1, m2⟩ := axesRes_len r1
    obtain ⟨rfl, e3⟩ := List.append_inj e1 (by omega)
    subst e3
    cases r2 with
    | cons a1 r3 =>
      cases r3 with
      | cons a2 r4 =>
        subst e2
        rw [cube_det hg' l2 hr' (AxesRes.append r1 (.cons a2 (.cons a1 r4))) F', cube_swap _ _ _ _ (fun p i j q hp => hF p i j q (by omega))]
  cases bound_check with
  | false => exact hf
  | true =>
    obtain ⟨a1, a2⟩ := interpolate_checked h (x := x ++ a :: a' :: y) (by omega)
    obtain ⟨b1, b2⟩ := interpolate_checked h' (x := x ++ a' :: a :: y) (by omega)
    have hiff : InBox (gs ++ g' :: g :: hs) (x ++ a' :: a :: y) ↔ InBox (gs ++ g :: g' :: hs) (x ++ a :: a' :: y) := by
      rw [inBox_append hx, inBox_append hx]
      exact ⟨fun h => ⟨h.1, inBox_swap h.2⟩, fun h => ⟨h.1, inBox_swap h.2⟩⟩
    by_cases hb : InBox (gs ++ g :: g' :: hs) (x ++ a :: a' :: y)
    · rw [a1 hb, b1 (hiff.2 hb), hf]
    · rw [a2 hb, b2 (fun hc => hb (hiff.1 hc))]

/-! ## An axis in the other direction -/

theorem AxisRes.mirror {g : List K} (hinc : g.Pairwise (· < ·)) {x y y' : K} {c c' : Int} {lo hi lo' hi' : Nat} (h : AxisRes g x c y lo hi)
    (h' : AxisRes (g.map fun t => -t).reverse (-x) c' y' lo' hi') (p : Nat → K) :
    p (g.length - 1 - lo') + y' * (p (g.length - 1 - hi') - p (g.length - 1 - lo')) = p lo + y * (p hi - p lo) := by
  have hinc' : (g.map fun t => -t).reverse.Pairwise (· < ·) := by
    rw [List.pairwise_reverse]
    exact hinc.map _ (fun u v h => by simpa using h)
  have get : ∀ i a, g[i]? = some a → (g.map fun t => -t).reverse[g.length - 1 - i]? = some (-a) := by
    intro i a hi
    obtain ⟨hi', rfl⟩ := List.getElem?_eq_some_iff.mp hi
    rw [List.getElem?_reverse (by simp; omega)]
    simp only [List.length_map, show g.length - 1 - (g.length - 1 - i) = i by omega, List.getElem?_map, hi, Option.map_some]
  cases h with
  | below a h0 hx =>
    have hl := (List.getElem?_eq_some_iff.mp h0).1
    have h1 := get 0 a h0
    have hlast : lo' = g.length - 1 ∧ hi' = g.length - 1 := by
      cases h' with
      | below b k0 kx => exact absurd (getElem?_le hinc' k0 h1 (Nat.zero_le _)) (by push Not; linarith)
      | above b k0 kx => simp
      | inside c b d k0 k1 k2 k3 =>
        have := (List.getElem?_eq_some_iff.mp k1).1
        simp at this
        exact absurd (getElem?_le hinc' k1 h1 (by omega)) (by push Not; linarith)
    rw [hlast.1, hlast.2, Nat.sub_self]
    ring
  | above b h0 hx =>
    have hl := (List.getElem?_eq_some_iff.mp h0).1
    have h1 := get _ b h0
    rw [Nat.sub_self] at h1
    cases h' with
    | below d k0 kx => simp
    | above d k0 kx =>
      have h3 : -b = -x := le_antisymm (le_trans (getElem?_le hinc' h1 k0 (Nat.zero_le _)) kx) (by linarith)
      have := AxisRes.node hinc' (AxisRes.above d k0 kx) (i := 0) (by rw [h1, h3]) (fun i => p (g.length - 1 - i))
      rw [this]
      simp
    | inside c d e k0 k1 k2 k3 =>
      have h3 : -b = -x := le_antisymm (le_trans (getElem?_le hinc' h1 k0 (Nat.zero_le _)) k2) (by linarith)
      have := AxisRes.node hinc' (AxisRes.inside lo' d e k0 k1 k2 k3) (i := 0) (by rw [h1, h3]) (fun i => p (g.length - 1 - i))
      rw [this]
      simp
  | inside c a b h0 h1 ha hb =>
    have hl := (List.getElem?_eq_some_iff.mp h1).1
    have e0 := get _ a h0
    have e1 := get _ b h1
    have := AxisRes.bracket hinc' h' (i := g.length - 1 - (lo + 1)) e1 (by rw [show g.length - 1 - (lo + 1) + 1 = g.length - 1 - lo by omega]; exact e0) (by linarith) (by linarith)
      (fun i => p (g.length - 1 - i))
    rw [this, show g.length - 1 - (g.length - 1 - (lo + 1)) = lo + 1 by omega, show g.length - 1 - (g.length - 1 - (lo + 1) + 1) = lo by omega]
    have hu := line_units (a := (-1 : K)) (by simp) 0 b a (p (lo + 1)) (p lo) x
    simp only [neg_mul, one_mul, add_zero] at hu
    have hab : b - a ≠ 0 := by
      have := lt_of_le_of_lt ha hb
      exact (sub_pos.2 this).ne'
    rw [hu, line_swap hab]
    simp [line]

theorem cube_mirror {gs : List (List K)} {g : List K} (hinc : g.Pairwise (· < ·)) {F F' : List Nat → K} {ws vs : List (Nat × Nat × K)}
    (hl : ws.length = gs.length) {a y y' : K} {c c' : Int} {lo hi lo' hi' : Nat} (h : AxisRes g a c y lo hi) (h' : AxisRes (g.map fun t => -t).reverse (-a) c' y' lo' hi')
    (hF : ∀ p i q, p.length = gs.length → i < g.length → F' (p ++ (g.length - 1 - i) :: q) = F (p ++ i :: q)) :
    cube (ws ++ (lo', hi', y') :: vs) F' = cube (ws ++ (lo, hi, y) :: vs) F := by
  induction ws generalizing F F' gs with
  | nil =>
    have hn : gs = [] := List.length_eq_zero_iff.1 hl.symm
    subst hn
    have e : ∀ j, j < g.length → (fun q => F' (j :: q)) = fun q => F ((g.length - 1 - j) :: q) := fun j hj => funext fun q => by
      have := hF [] (g.length - 1 - j) q rfl (by omega)
      rw [show g.length - 1 - (g.length - 1 - j) = j by omega] at this
      simpa using this
    have l1 := h'.lo_lt
    have l2 := h'.hi_lt
    simp only [List.length_reverse, List.length_map] at l1 l2
    simp only [List.nil_append, cube, e _ l1, e _ l2]
    exact AxisRes.mirror hinc h h' (fun i => cube vs fun q => F (i :: q))
  | cons v ws ih =>
    cases gs with
    | nil => simp at hl
    | cons g0 gs =>
      obtain ⟨a0, b0, y0⟩ := v
      have e : ∀ k, cube (ws ++ (lo', hi', y') :: vs) (fun is => F' (k :: is)) = cube (ws ++ (lo, hi, y) :: vs) (fun is => F (k :: is)) := fun k =>
        ih (gs := gs) (by simpa using hl) fun p i q hp hi => by simpa using hF (k :: p) i q (by simp [hp]) hi
      simp only [List.cons_append, cube, e]

theorem inBox_mirror {g : List K} {hs : List (List K)} {a : K} {y : List K} :
    InBox ((g.map fun t => -t).reverse :: hs) (-a :: y) ↔ InBox (g :: hs) (a :: y) := by
  constructor
  · intro h
    cases h with
    | cons h1 h2 h3 h4 h5 =>
      simp only [List.head?_reverse, List.getLast?_reverse, List.head?_map, List.getLast?_map, Option.map_eq_some_iff] at h1 h2
      obtain ⟨p, hp, rfl⟩ := h1
      obtain ⟨q, hq, rfl⟩ := h2
      exact .cons hq hp (neg_le_neg_iff.1 h4) (neg_le_neg_iff.1 h3) h5
  · intro h
    cases h with
    | cons h1 h2 h3 h4 h5 =>
      exact .cons (by rw [List.head?_reverse, List.getLast?_map, h2]; rfl) (by rw [List.getLast?_reverse, List.head?_map, h1]; rfl)
        (neg_le_neg h4) (neg_le_neg h3) h5

/-- C199: reading one axis in the other direction changes nothing, with and without check of the bounds. -/
theorem C199_grid_mirror {dim : Nat} {gs hs : List (List K)} {g : List K} {F F' : List Nat → K} {s s' : RGI K}
    (h : Loaded dim (gs ++ g :: hs) F s) (h' : Loaded dim (gs ++ (g.map fun t => -t).reverse :: hs) F' s')
    (hF : ∀ p i q, p.length = gs.length → i < g.length → F' (p ++ (g.length - 1 - i) :: q) = F (p ++ i :: q))
    {x y : List K} {a : K} (hx : x.length = gs.length) (hy : y.length = hs.length) (bound_check : Bool) :
    interpolate s' (x ++ -a :: y) bound_check = interpolate s (x ++ a :: y) bound_check := by
  obtain ⟨hg, hd, _, hF1, _⟩ := Loaded.fields h
  obtain ⟨hg', hd', _, hF2, _⟩ := Loaded.fields h'
  have l1 : (x ++ a :: y).length = (gs ++ g :: hs).length := by simp [hx, hy]
  have l2 : (x ++ -a :: y).length = (gs ++ (g.map fun t => -t).reverse :: hs).length := by simp [hx, hy]
  have hf : interpolate s' (x ++ -a :: y) false = interpolate s (x ++ a :: y) false := by
    obtain ⟨cs, ys, ws, hr, he⟩ := interp_cube hg hF1 l1
    obtain ⟨cs', ys', ws', hr', he'⟩ := interp_cube hg' hF2 l2
    rw [interpolate_loaded h, interpolate_loaded h', he, he']
    obtain ⟨x₁, x₂, cs₁, cs₂, ys₁, ys₂, ws₁, ws₂, e1, e2, r1, r2⟩ := AxesRes.split hr
    obtain ⟨m1, m2⟩ := axesRes_len r1
    obtain ⟨rfl, e3⟩ := List.append_inj e1 (by omega)
    subst e3
    obtain ⟨x₁', x₂', cs₁', cs₂', ys₁', ys₂', ws₁', ws₂', e1', e2', r1', r2'⟩ := AxesRes.split hr'
    obtain ⟨m1', m2'⟩ := axesRes_len r1'
    obtain ⟨rfl, e3'⟩ := List.append_inj e1' (by omega)
    subst e3'
    cases r2 with
    | cons a1 r3 =>
      cases r2' with
      | cons a2 r4 =>
        subst e2
        rw [cube_det hg' l2 hr' (AxesRes.append r1 (.cons a2 r3)) F',
          cube_mirror (hg.increasing g (by simp)) m2 a1 a2 hF]
  cases bound_check with
  | false => exact hf
  | true =>
    obtain ⟨a1, a2⟩ := interpolate_checked h (x := x ++ a :: y) (by omega)
    obtain ⟨b1, b2⟩ := interpolate_checked h' (x := x ++ -a :: y) (by omega)
    have hiff : InBox (gs ++ (g.map fun t => -t).reverse :: hs) (x ++ -a :: y) ↔ InBox (gs ++ g :: hs) (x ++ a :: y) := by
      rw [inBox_append hx, inBox_append hx, inBox_mirror]
    by_cases hb : InBox (gs ++ g :: hs) (x ++ a :: y)
    · rw [a1 hb, b1 (hiff.2 hb), hf]
    · rw [a2 hb, b2 (fun hc => hb (hiff.1 hc))]

/-- Objects with such axes and data exist: any axes, any data. -/
example : ∃ s s' : RGI ℚ, Loaded 2 ([[0, 1, 3]] ++ [10, 20] :: []) (fun i => ((i.getD 0 0 : Nat) : ℚ) * 5 + ((i.getD 1 0 : Nat) : ℚ)) s ∧
    Loaded 2 ([[0, 1, 3]] ++ (([10, 20] : List ℚ).map fun t => -t).reverse :: []) (fun i => ((i.getD 0 0 : Nat) : ℚ) * 5 + (1 - ((i.getD 1 0 : Nat) : ℚ))) s' := by
  obtain ⟨s, hs⟩ := exists_loaded (grids := ([[0, 1, 3]] ++ [10, 20] :: [] : List (List ℚ))) ⟨by simp, by simp, by simp; norm_num⟩
    (fun i => ((i.getD 0 0 : Nat) : ℚ) * 5 + ((i.getD 1 0 : Nat) : ℚ))
  obtain ⟨s', hs'⟩ := exists_loaded (grids := ([[0, 1, 3]] ++ (([10, 20] : List ℚ).map fun t => -t).reverse :: [] : List (List ℚ))) ⟨by simp, by simp, by simp; norm_num⟩
    (fun i => ((i.getD 0 0 : Nat) : ℚ) * 5 + (1 - ((i.getD 1 0 : Nat) : ℚ)))
  exact ⟨s, s', hs, hs'⟩

end MU
