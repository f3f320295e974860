import Verif.Props.ChangeOfUnitsGrid
import Verif.Lemmas.Lipschitz
import Verif.Props.Simplex
import Verif.Props.SimplexUnits

/-!
# C208: nodes that carry interpolated values add nothing

A table or a grid to which a node (or a whole plane of nodes) is added, with the values the interpolator gives there, describes the same
function: `Interp1d`, `Interp2d`, the multilinear interpolation of a regular grid and `Trapz` give the same results as before.
-/

set_option linter.unusedSectionVars false

namespace MU

open Spec Interp1d Finset

section lists
variable {α : Type} (p : List α) (a c b : α) (q : List α)

theorem added_le {k : Nat} (h : k ≤ p.length) : (p ++ a :: c :: b :: q)[k]? = (p ++ a :: b :: q)[k]? := by
  rcases lt_or_eq_of_le h with h | h
  · rw [List.getElem?_append_left h, List.getElem?_append_left h]
  · subst h; simp

theorem added_new : (p ++ a :: c :: b :: q)[p.length + 1]? = some c := by
  simp

theorem added_ge {k : Nat} (h : p.length < k) : (p ++ a :: c :: b :: q)[k + 1]? = (p ++ a :: b :: q)[k]? := by
  obtain ⟨d, rfl⟩ : ∃ d, k = p.length + 1 + d := ⟨k - (p.length + 1), by omega⟩
  rw [List.getElem?_append_right (by omega), List.getElem?_append_right (by omega),
    show p.length + 1 + d + 1 - p.length = d + 1 + 1 by omega, show p.length + 1 + d - p.length = d + 1 by omega]
  simp

theorem added_a : (p ++ a :: b :: q)[p.length]? = some a := by simp

theorem added_b : (p ++ a :: b :: q)[p.length + 1]? = some b := by simp

end lists

section one
variable {K Y : Type} [Field K] [LinearOrder K] [IsStrictOrderedRing K] [AddCommGroup Y] [Module K Y]

theorem added_pairwise {p q : List K} {a c b : K} (h : (p ++ a :: b :: q).Pairwise (· < ·)) (h1 : a < c) (h2 : c < b) :
    (p ++ a :: c :: b :: q).Pairwise (· < ·) := by
  simp only [List.pairwise_append, List.pairwise_cons, List.mem_cons] at h ⊢
  obtain ⟨hp, ⟨ha, hb, hq⟩, hpq⟩ := h
  refine ⟨hp, ⟨?_, ?_, hb, hq⟩, ?_⟩
  · rintro t (rfl | rfl | ht)
    · exact h1
    · exact h1.trans h2
    · exact ha _ (Or.inr ht)
  · rintro t (rfl | ht)
    · exact h2
    · exact h2.trans (hb _ ht)
  · rintro s hs t (rfl | rfl | rfl | ht)
    · exact hpq s hs _ (Or.inl rfl)
    · exact (hpq s hs _ (Or.inl rfl)).trans h1
    · exact hpq s hs _ (Or.inr (Or.inl rfl))
    · exact hpq s hs _ (Or.inr (Or.inr ht))

theorem Spec.Table.added {p q : List K} {a c b : K} {u w : List Y} {ya yc yb : Y} (ht : Table (p ++ a :: b :: q) (u ++ ya :: yb :: w))
    (h1 : a < c) (h2 : c < b) : Table (p ++ a :: c :: b :: q) (u ++ ya :: yc :: yb :: w) :=
  ⟨by simp; omega, added_pairwise ht.increasing h1 h2, by
    have := ht.sizes
    simp at this ⊢
    omega⟩

/-- On both halves of a segment cut at one of its points the line is the line of the whole. -/
theorem line_cut_left {a c b : K} (h1 : c - a ≠ 0) (h2 : b - a ≠ 0) (ya yb : Y) (x : K) : line a ya c (line a ya b yb c) x = line a ya b yb x := by
  unfold line
  rw [add_sub_cancel_left, smul_smul]
  congr 2
  field_simp

theorem line_cut_right {a c b : K} (h1 : b - c ≠ 0) (h2 : b - a ≠ 0) (ya yb : Y) (x : K) : line c (line a ya b yb c) b yb x = line a ya b yb x := by
  unfold line
  have e : (x - a) / (b - a) = (c - a) / (b - a) + (x - c) / (b - c) * (1 - (c - a) / (b - a)) := by
    field_simp
    ring
  rw [e]
  module

theorem seg_of (B : Build) {m : InterpMethod} (hm : m ≠ .BSPLINE) {xs : List K} {ys : List Y} (ht : Table xs ys) {i : Nat} {x0 x1 x : K} {y0 y1 : Y}
    (e0 : xs[i]? = some x0) (e1 : xs[i + 1]? = some x1) (f0 : ys[i]? = some y0) (f1 : ys[i + 1]? = some y1) (h0 : x0 ≤ x) (h1 : x ≤ x1) :
    interp1d B m xs ys x = .ok (line x0 y0 x1 y1 x) := by
  obtain ⟨l0, rfl⟩ := List.getElem?_eq_some_iff.mp e0
  obtain ⟨l1, rfl⟩ := List.getElem?_eq_some_iff.mp e1
  obtain ⟨m0, rfl⟩ := List.getElem?_eq_some_iff.mp f0
  obtain ⟨m1, rfl⟩ := List.getElem?_eq_some_iff.mp f1
  exact C01_piecewise_affine B hm ht l1 m1 h0 h1

/-- C208: a node added between two nodes of a table, with the value of the segment there, changes no result of `Interp1d`: at every point the same value or the same
refusal, whatever the method. -/
theorem C208_interp1d (B : Build) {m : InterpMethod} (hm : m ≠ .BSPLINE) {p q : List K} {a c b : K} {u w : List Y} {ya yb : Y}
    (ht : Table (p ++ a :: b :: q) (u ++ ya :: yb :: w)) (hp : u.length = p.length) (h1 : a < c) (h2 : c < b) (x : K) :
    interp1d B m (p ++ a :: c :: b :: q) (u ++ ya :: line a ya b yb c :: yb :: w) x = interp1d B m (p ++ a :: b :: q) (u ++ ya :: yb :: w) x := by
  have ht' : Table (p ++ a :: c :: b :: q) (u ++ ya :: line a ya b yb c :: yb :: w) := ht.added h1 h2
  generalize hyc : line a ya b yb c = yc at *
  have hba : b - a ≠ 0 := (sub_pos.2 (h1.trans h2)).ne'
  have hca : c - a ≠ 0 := (sub_pos.2 h1).ne'
  have hbc : b - c ≠ 0 := (sub_pos.2 h2).ne'
  have hs := ht.sizes
  have hs' := ht'.sizes
  have two := ht.two
  have two' := ht'.two
  have len : (p ++ a :: c :: b :: q).length = (p ++ a :: b :: q).length + 1 := by simp; omega
  have xl : ∀ k, k ≤ p.length → (p ++ a :: c :: b :: q)[k]? = (p ++ a :: b :: q)[k]? := fun k => added_le p a c b q
  have xn : (p ++ a :: c :: b :: q)[p.length + 1]? = some c := added_new p a c b q
  have xg : ∀ k, p.length < k → (p ++ a :: c :: b :: q)[k + 1]? = (p ++ a :: b :: q)[k]? := fun k => added_ge p a c b q
  have xa : (p ++ a :: b :: q)[p.length]? = some a := added_a p a b q
  have xb : (p ++ a :: b :: q)[p.length + 1]? = some b := added_b p a b q
  have yl : ∀ k, k ≤ p.length → (u ++ ya :: yc :: yb :: w)[k]? = (u ++ ya :: yb :: w)[k]? := fun k h => added_le u ya yc yb w (hp ▸ h)
  have yn : (u ++ ya :: yc :: yb :: w)[p.length + 1]? = some yc := hp ▸ added_new u ya yc yb w
  have yg : ∀ k, p.length < k → (u ++ ya :: yc :: yb :: w)[k + 1]? = (u ++ ya :: yb :: w)[k]? := fun k h => added_ge u ya yc yb w (hp ▸ h)
  have yha : (u ++ ya :: yb :: w)[p.length]? = some ya := hp ▸ added_a u ya yb w
  have yhb : (u ++ ya :: yb :: w)[p.length + 1]? = some yb := hp ▸ added_b u ya yb w
  have hlen : p.length + 1 < (p ++ a :: b :: q).length := by simp
  generalize p ++ a :: c :: b :: q = xs' at *
  generalize p ++ a :: b :: q = xs at *
  generalize u ++ ya :: yc :: yb :: w = ys' at *
  generalize u ++ ya :: yb :: w = ys at *
  have g0 : xs'[0]'(by omega) = xs[0]'(by omega) := by
    have := xl 0 (Nat.zero_le _)
    rw [List.getElem?_eq_getElem (by omega), List.getElem?_eq_getElem (by omega)] at this
    exact Option.some_inj.1 this
  have k0 : ys'[0]'(by omega) = ys[0]'(by omega) := by
    have := yl 0 (Nat.zero_le _)
    rw [List.getElem?_eq_getElem (by omega), List.getElem?_eq_getElem (by omega)] at this
    exact Option.some_inj.1 this
  have gl : xs'[xs'.length - 1]'(by omega) = xs[xs.length - 1]'(by omega) := by
    have := xg (xs.length - 1) (by omega)
    rw [List.getElem?_eq_getElem (by omega), List.getElem?_eq_getElem (by omega)] at this
    rw [← Option.some_inj.1 this]
    congr 1
    omega
  have kl : ys'[ys'.length - 1]'(by omega) = ys[ys.length - 1]'(by omega) := by
    have := yg (ys.length - 1) (by omega)
    rw [List.getElem?_eq_getElem (by omega), List.getElem?_eq_getElem (by omega)] at this
    rw [← Option.some_inj.1 this]
    congr 1
    omega
  rcases lt_or_ge x (xs[0]'(by omega)) with h0 | h0
  · cases m with
    | LINEAR =>
      rw [C03_linear_exits B ht (Or.inl h0), C03_linear_exits B ht' (Or.inl (by rw [g0]; exact h0))]
    | LINEAR_SATURATE =>
      rw [C03_saturate_left B ht (by omega) (by omega) h0.le, C03_saturate_left B ht' (by omega) (by omega) (by rw [g0]; exact h0.le), k0]
    | LINEAR_EXTRAPOLATE =>
      rw [C04_extrapolate_left_partial B ht (by omega) (by omega) h0,
        C04_extrapolate_left_partial B ht' (by omega) (by omega) (by rw [g0]; exact h0), g0, k0]
      rcases Nat.eq_zero_or_pos p.length with hz | hz
      · rw [hz] at xn xa xb yn yha yhb
        rw [List.getElem?_eq_getElem (by omega), Option.some_inj] at xn xa xb yn yha yhb
        simp only [Nat.zero_add] at xn xb yn yhb
        rw [xn, xa, xb, yn, yha, yhb, ← hyc, line_cut_left hca hba]
      · have e1 := xl 1 hz
        have e2 := yl 1 hz
        rw [List.getElem?_eq_getElem (by omega), List.getElem?_eq_getElem (by omega), Option.some_inj] at e1 e2
        rw [e1, e2]
    | BSPLINE => exact absurd rfl hm
  rcases lt_or_ge (xs[xs.length - 1]'(by omega)) x with h3 | h3
  · cases m with
    | LINEAR =>
      rw [C03_linear_exits B ht (Or.inr h3), C03_linear_exits B ht' (Or.inr (by rw [gl]; exact h3))]
    | LINEAR_SATURATE =>
      rw [C03_saturate_right B ht (by omega) (by omega) h3.le, C03_saturate_right B ht' (by omega) (by omega) (by rw [gl]; exact h3.le), kl]
    | LINEAR_EXTRAPOLATE =>
      rw [C04_right_extrapolation_throws B ht h3, C04_right_extrapolation_throws B ht' (by rw [gl]; exact h3)]
    | BSPLINE => exact absurd rfl hm
  obtain ⟨i, hi, c0, c1⟩ := C01_range_covered ht h0 h3
  have e0 := List.getElem?_eq_getElem (l := xs) (i := i) (by omega)
  have e1 := List.getElem?_eq_getElem (l := xs) hi
  have f0 := List.getElem?_eq_getElem (l := ys) (i := i) (by omega)
  have f1 := List.getElem?_eq_getElem (l := ys) (i := i + 1) (by omega)
  rw [seg_of B hm ht e0 e1 f0 f1 c0 c1]
  rcases lt_trichotomy i p.length with hip | hip | hip
  · exact seg_of B hm ht' ((xl i hip.le).trans e0) ((xl (i + 1) hip).trans e1) ((yl i hip.le).trans f0) ((yl (i + 1) hip).trans f1) c0 c1
  · subst hip
    rw [xa, Option.some_inj] at e0
    rw [xb, Option.some_inj] at e1
    rw [yha, Option.some_inj] at f0
    rw [yhb, Option.some_inj] at f1
    rw [← e0] at c0
    rw [← e1] at c1
    rw [← e0, ← e1, ← f0, ← f1]
    rcases le_total x c with hxc | hxc
    · rw [seg_of B hm ht' ((xl _ le_rfl).trans xa) xn ((yl _ le_rfl).trans yha) yn c0 hxc, ← hyc, line_cut_left hca hba]
    · rw [seg_of B hm ht' xn ((xg _ (Nat.lt_succ_self _)).trans xb) yn ((yg _ (Nat.lt_succ_self _)).trans yhb) hxc c1, ← hyc, line_cut_right hbc hba]
  · exact seg_of B hm ht' ((xg i hip).trans e0) ((xg (i + 1) (by omega)).trans e1) ((yg i hip).trans f0) ((yg (i + 1) (by omega)).trans f1) c0 c1

/-- A node at `2` added to the table `(0, 5), (1, 7), (3, 1)`, with the value `4`: at `5/2` both give `5/2`. -/
example : interp1d ⟨true⟩ .LINEAR_EXTRAPOLATE ([0] ++ 1 :: 2 :: 3 :: [] : List ℚ) ([5] ++ 7 :: line (1 : ℚ) (7 : ℚ) 3 1 2 :: 1 :: [] : List ℚ) (5 / 2) = .ok (5 / 2) := by
  rw [C208_interp1d ⟨true⟩ (by simp) (p := [0]) (q := []) (u := [5]) (w := []) (ht := sampleTable) rfl (by norm_num) (by norm_num)]
  decide +kernel

/-- The value matters: with `5` in place of `4` the added node changes the result. -/
example : interp1d ⟨true⟩ .LINEAR ([0, 1, 2, 3] : List ℚ) ([5, 7, 5, 1] : List ℚ) (5 / 2) = .ok 3 := by
  decide +kernel

end one

/-! ## Integrals -/

section integrals
variable {K : Type} [Field K] [LinearOrder K] [IsStrictOrderedRing K]

/-- C208: ... and no integral: `Trapz` of the samples with the node is `Trapz` of the samples without. -/
theorem C208_trapz (B : Build) {p q u w : List K} {a c b ya yb : K} (hp : u.length = p.length) (hq : w.length = q.length) (hab : a ≠ b)
    (h64 : (u ++ ya :: yb :: w).length + 1 < 2 ^ 64) :
    trapz B (p ++ a :: c :: b :: q) (u ++ ya :: line a ya b yb c :: yb :: w) = trapz B (p ++ a :: b :: q) (u ++ ya :: yb :: w) := by
  have hba : b - a ≠ 0 := sub_ne_zero.2 (Ne.symm hab)
  generalize hyc : line a ya b yb c = yc
  have len : (u ++ ya :: yc :: yb :: w).length = u.length + w.length + 3 := by simp; omega
  have len' : (u ++ ya :: yb :: w).length = u.length + w.length + 2 := by simp; omega
  rw [trapz_ok B (by omega) (by omega) (by simp [hp, hq]), trapz_ok B (by omega) (by omega) (by simp [hp, hq]), len, len']
  congr 1
  unfold panels
  rw [show u.length + w.length + 3 - 1 = p.length + 2 + w.length by omega, show u.length + w.length + 2 - 1 = p.length + 1 + w.length by omega,
    sum_range_add _ (p.length + 2) w.length, sum_range_add _ (p.length + 1) w.length, sum_range_succ _ (p.length + 1), sum_range_succ _ p.length,
    sum_range_succ _ p.length]
  have xl : ∀ k, k ≤ p.length → (p ++ a :: c :: b :: q).getD k 0 = (p ++ a :: b :: q).getD k 0 := fun k h => by
    rw [List.getD_eq_getElem?_getD, List.getD_eq_getElem?_getD, added_le p a c b q h]
  have yl : ∀ k, k ≤ p.length → (u ++ ya :: yc :: yb :: w).getD k 0 = (u ++ ya :: yb :: w).getD k 0 := fun k h => by
    rw [List.getD_eq_getElem?_getD, List.getD_eq_getElem?_getD, added_le u ya yc yb w (hp ▸ h)]
  have xg : ∀ k, p.length < k → (p ++ a :: c :: b :: q).getD (k + 1) 0 = (p ++ a :: b :: q).getD k 0 := fun k h => by
    rw [List.getD_eq_getElem?_getD, List.getD_eq_getElem?_getD, added_ge p a c b q h]
  have yg : ∀ k, p.length < k → (u ++ ya :: yc :: yb :: w).getD (k + 1) 0 = (u ++ ya :: yb :: w).getD k 0 := fun k h => by
    rw [List.getD_eq_getElem?_getD, List.getD_eq_getElem?_getD, added_ge u ya yc yb w (hp ▸ h)]
  have xn : (p ++ a :: c :: b :: q).getD (p.length + 1) 0 = c := by rw [List.getD_eq_getElem?_getD, added_new]; rfl
  have yn : (u ++ ya :: yc :: yb :: w).getD (p.length + 1) 0 = yc := by rw [← hp, List.getD_eq_getElem?_getD, added_new]; rfl
  have xa : (p ++ a :: b :: q).getD p.length 0 = a := by rw [List.getD_eq_getElem?_getD, added_a]; rfl
  have xb : (p ++ a :: b :: q).getD (p.length + 1) 0 = b := by rw [List.getD_eq_getElem?_getD, added_b]; rfl
  have yha : (u ++ ya :: yb :: w).getD p.length 0 = ya := by rw [← hp, List.getD_eq_getElem?_getD, added_a]; rfl
  have yhb : (u ++ ya :: yb :: w).getD (p.length + 1) 0 = yb := by rw [← hp, List.getD_eq_getElem?_getD, added_b]; rfl
  generalize (p ++ a :: c :: b :: q) = xs' at *
  generalize (u ++ ya :: yc :: yb :: w) = ys' at *
  generalize (p ++ a :: b :: q) = xs at *
  generalize (u ++ ya :: yb :: w) = ys at *
  have s1 : ∑ i ∈ range p.length, (xs'.getD (i + 1) 0 - xs'.getD i 0) * (ys'.getD i 0 + ys'.getD (i + 1) 0) / 2 =
      ∑ i ∈ range p.length, (xs.getD (i + 1) 0 - xs.getD i 0) * (ys.getD i 0 + ys.getD (i + 1) 0) / 2 := sum_congr rfl fun i hi => by
    have hi := mem_range.1 hi
    rw [xl i hi.le, xl (i + 1) hi, yl i hi.le, yl (i + 1) hi]
  have s2 : ∑ i ∈ range w.length, (xs'.getD (p.length + 2 + i + 1) 0 - xs'.getD (p.length + 2 + i) 0) * (ys'.getD (p.length + 2 + i) 0 + ys'.getD (p.length + 2 + i + 1) 0) / 2 =
      ∑ i ∈ range w.length, (xs.getD (p.length + 1 + i + 1) 0 - xs.getD (p.length + 1 + i) 0) * (ys.getD (p.length + 1 + i) 0 + ys.getD (p.length + 1 + i + 1) 0) / 2 :=
    sum_congr rfl fun i _ => by
      rw [show p.length + 2 + i = p.length + 1 + i + 1 by omega, xg _ (by omega), xg _ (by omega), yg _ (by omega), yg _ (by omega)]
  beta_reduce
  rw [s1, s2, xl _ le_rfl, yl _ le_rfl, xn, yn, xg _ (Nat.lt_succ_self _), yg _ (Nat.lt_succ_self _), xa, xb, yha, yhb, ← hyc]
  unfold line
  rw [smul_eq_mul]
  have : (c - a) * (ya + (ya + (c - a) / (b - a) * (yb - ya))) / 2 + (b - c) * (ya + (c - a) / (b - a) * (yb - ya) + yb) / 2 = (b - a) * (ya + yb) / 2 := by
    field_simp
    ring
  linear_combination this

example : trapz ⟨true⟩ ([0] ++ 1 :: 2 :: 3 :: [] : List ℚ) ([5] ++ 7 :: line (1 : ℚ) (7 : ℚ) 3 1 2 :: 1 :: []) = .ok 14 := by
  rw [C208_trapz _ (p := [0]) (q := []) (u := [5]) (w := []) rfl rfl (by norm_num) (by norm_num)]
  decide +kernel

end integrals

/-! ## Two variables -/

section two
variable {K : Type} [Field K] [LinearOrder K] [IsStrictOrderedRing K]

theorem bilinear_cut_left {a c b y0 y1 : K} (h1 : c - a ≠ 0) (h2 : b - a ≠ 0) (f00 f10 f01 f11 x y : K) :
    bilinear a c y0 y1 f00 (line a f00 b f10 c) f01 (line a f01 b f11 c) x y = bilinear a b y0 y1 f00 f10 f01 f11 x y := by
  unfold bilinear
  rw [line_cut_left h1 h2, line_cut_left h1 h2]

theorem bilinear_cut_right {a c b y0 y1 : K} (h1 : b - c ≠ 0) (h2 : b - a ≠ 0) (f00 f10 f01 f11 x y : K) :
    bilinear c b y0 y1 (line a f00 b f10 c) f10 (line a f01 b f11 c) f11 x y = bilinear a b y0 y1 f00 f10 f01 f11 x y := by
  unfold bilinear
  rw [line_cut_right h1 h2, line_cut_right h1 h2]

/-- The list `xs'` is the list `xs` with `c` added after position `n`. -/
structure AddedAt (n : Nat) (xs xs' : List K) (a c b : K) : Prop where
  len : xs'.length = xs.length + 1
  room : n + 1 < xs.length
  low : ∀ k (hk : k ≤ n), xs'[k]'(by omega) = xs[k]'(by omega)
  mid : xs'[n + 1]'(by omega) = c
  high : ∀ k (_ : n < k) (hk' : k < xs.length), xs'[k + 1]'(by omega) = xs[k]
  left : xs[n]'(by omega) = a
  right : xs[n + 1]'(by omega) = b

theorem addedAt (p q : List K) (a c b : K) : AddedAt p.length (p ++ a :: b :: q) (p ++ a :: c :: b :: q) a c b := by
  have len : (p ++ a :: c :: b :: q).length = (p ++ a :: b :: q).length + 1 := by simp; omega
  have hlen : p.length + 1 < (p ++ a :: b :: q).length := by simp
  refine ⟨len, hlen, fun k hk => ?_, ?_, fun k hk hk' => ?_, ?_, ?_⟩
  · have := added_le p a c b q hk
    rwa [List.getElem?_eq_getElem (by omega), List.getElem?_eq_getElem (by omega), Option.some_inj] at this
  · have := added_new p a c b q
    rwa [List.getElem?_eq_getElem (by omega), Option.some_inj] at this
  · have := added_ge p a c b q hk
    rwa [List.getElem?_eq_getElem (by omega), List.getElem?_eq_getElem (by omega), Option.some_inj] at this
  · have := added_a p a b q
    rwa [List.getElem?_eq_getElem (by omega), Option.some_inj] at this
  · have := added_b p a b q
    rwa [List.getElem?_eq_getElem (by omega), Option.some_inj] at this

theorem AddedAt.last {n : Nat} {xs xs' : List K} {a c b : K} (h : AddedAt n xs xs' a c b) :
    xs'[xs'.length - 1]'(by have := h.len; omega) = xs[xs.length - 1]'(by have := h.room; omega) := by
  have := h.len
  have := h.room
  rw [← h.high _ (by omega) (by omega)]
  congr 1
  omega

theorem AddedAt.gaps {n : Nat} {xs xs' : List K} {a c b : K} (h : AddedAt n xs xs' a c b) (inc : xs.Pairwise (· < ·)) (inc' : xs'.Pairwise (· < ·)) :
    c - a ≠ 0 ∧ b - c ≠ 0 ∧ b - a ≠ 0 := by
  obtain ⟨len, room, low, mid, high, left, right⟩ := h
  refine ⟨?_, ?_, ?_⟩
  · rw [← mid, ← left, ← low _ le_rfl]
    exact (sub_pos.2 (List.pairwise_iff_getElem.1 inc' _ _ _ _ (Nat.lt_succ_self _))).ne'
  · rw [← mid, ← right, ← high _ (Nat.lt_succ_self _) room]
    exact (sub_pos.2 (List.pairwise_iff_getElem.1 inc' _ _ _ _ (Nat.lt_succ_self _))).ne'
  · rw [← left, ← right]
    exact (sub_pos.2 (List.pairwise_iff_getElem.1 inc _ _ _ _ (Nat.lt_succ_self _))).ne'

theorem interp2d_column (B : Build) {n : Nat} {xs xs' ys data data' : List K} {a c b : K} (g : Grid xs ys data) (g' : Grid xs' ys data') (hA : AddedAt n xs xs' a c b)
    (d1 : ∀ i j (h1 : i < xs'.length) (h2 : i < xs.length) (_ : i ≤ n) (hj : j < ys.length), g'.at i j h1 hj = g.at i j h2 hj)
    (d2 : ∀ j (h1 : n + 1 < xs'.length) (h2 : n < xs.length) (h3 : n + 1 < xs.length) (hj : j < ys.length),
      g'.at (n + 1) j h1 hj = line a (g.at n j h2 hj) b (g.at (n + 1) j h3 hj) c)
    (d3 : ∀ i j (h1 : i + 1 < xs'.length) (h2 : i < xs.length) (_ : n < i) (hj : j < ys.length), g'.at (i + 1) j h1 hj = g.at i j h2 hj) (x y : K)
    (h : B = ⟨true⟩ ∨ xs[0]'(by have := g.twox; omega) ≤ x ∧ x ≤ xs[xs.length - 1]'(by have := g.twox; omega) ∧
      ys[0]'(by have := g.twoy; omega) ≤ y ∧ y ≤ ys[ys.length - 1]'(by have := g.twoy; omega)) :
    interp2d B .LINEAR xs' ys data' x y = interp2d B .LINEAR xs ys data x y := by
  have h2 := g.twox
  have h2' := g.twoy
  obtain ⟨hca, hbc, hba⟩ := hA.gaps g.incx g'.incx
  have gl := hA.last
  obtain ⟨len, hlen, xl, xn, xg, xa, xb⟩ := hA
  by_cases hb : xs[0]'(by omega) ≤ x ∧ x ≤ xs[xs.length - 1]'(by omega) ∧ ys[0]'(by omega) ≤ y ∧ y ≤ ys[ys.length - 1]'(by omega)
  · obtain ⟨a0, a1, b0, b1⟩ := hb
    obtain ⟨i, j, hi, hj, c0, c1, e0, e1⟩ := C08_range_covered g a0 a1 b0 b1
    rw [C08_bilinear B g hi hj c0 c1 e0 e1]
    rcases lt_trichotomy i n with hip | hip | hip
    · rw [C08_bilinear B g' (i := i) (j := j) (by omega) hj (by rw [xl _ hip.le]; exact c0) (by rw [xl _ hip]; exact c1) e0 e1, d1 i j (by omega) (by omega) hip.le,
        d1 i (j + 1) (by omega) (by omega) hip.le, d1 (i + 1) j (by omega) (by omega) hip, d1 (i + 1) (j + 1) (by omega) (by omega) hip, xl i hip.le, xl (i + 1) hip]
    · subst hip
      rcases le_total x c with hxc | hxc
      · rw [C08_bilinear B g' (i := i) (j := j) (by omega) hj (by rw [xl _ le_rfl]; exact c0) (by rw [xn]; exact hxc) e0 e1, d1 _ j (by omega) (by omega) le_rfl,
          d1 _ (j + 1) (by omega) (by omega) le_rfl, d2 j (by omega) (by omega) hi, d2 (j + 1) (by omega) (by omega) hi, xl _ le_rfl, xn, xa, xb, bilinear_cut_left hca hba]
      · rw [C08_bilinear B g' (i := i + 1) (j := j) (by omega) hj (by rw [xn]; exact hxc) (by rw [xg _ (by omega) (by omega)]; exact c1) e0 e1, d3 _ j (by omega) hi (by omega),
          d3 _ (j + 1) (by omega) hi (by omega), d2 j (by omega) (by omega) hi, d2 (j + 1) (by omega) (by omega) hi, xn, xg _ (by omega) hi, xa, xb, bilinear_cut_right hbc hba]
    · rw [C08_bilinear B g' (i := i + 1) (j := j) (by omega) hj (by rw [xg _ (by omega)]; exact c0) (by rw [xg _ (by omega)]; exact c1) e0 e1, d3 i j (by omega) (by omega) hip,
        d3 i (j + 1) (by omega) (by omega) hip, d3 (i + 1) j (by omega) hi (by omega), d3 (i + 1) (j + 1) (by omega) hi (by omega), xg i hip (by omega), xg (i + 1) (by omega) hi]
  · rcases h with rfl | h
    · have hout : x < xs[0]'(by omega) ∨ xs[xs.length - 1]'(by omega) < x ∨ y < ys[0]'(by omega) ∨ ys[ys.length - 1]'(by omega) < y := by
        by_contra hc
        push Not at hc
        exact hb ⟨hc.1, hc.2.1, hc.2.2.1, hc.2.2.2⟩
      rw [C10_checked_aborts_partial g hout, C10_checked_aborts_partial g' (by rw [xl 0 (Nat.zero_le _), gl]; exact hout)]
    · exact absurd h hb

theorem interp2d_row (B : Build) {n : Nat} {xs ys ys' data data' : List K} {a c b : K} (g : Grid xs ys data) (g' : Grid xs ys' data') (hA : AddedAt n ys ys' a c b)
    (d1 : ∀ i j (hi : i < xs.length) (h1 : j < ys'.length) (h2 : j < ys.length) (_ : j ≤ n), g'.at i j hi h1 = g.at i j hi h2)
    (d2 : ∀ i (hi : i < xs.length) (h1 : n + 1 < ys'.length) (h2 : n < ys.length) (h3 : n + 1 < ys.length),
      g'.at i (n + 1) hi h1 = line a (g.at i n hi h2) b (g.at i (n + 1) hi h3) c)
    (d3 : ∀ i j (hi : i < xs.length) (h1 : j + 1 < ys'.length) (h2 : j < ys.length) (_ : n < j), g'.at i (j + 1) hi h1 = g.at i j hi h2) (x y : K)
    (h : B = ⟨true⟩ ∨ xs[0]'(by have := g.twox; omega) ≤ x ∧ x ≤ xs[xs.length - 1]'(by have := g.twox; omega) ∧
      ys[0]'(by have := g.twoy; omega) ≤ y ∧ y ≤ ys[ys.length - 1]'(by have := g.twoy; omega)) :
    interp2d B .LINEAR xs ys' data' x y = interp2d B .LINEAR xs ys data x y := by
  have h2 := g.twox
  have h2' := g.twoy
  obtain ⟨hca, hbc, hba⟩ := hA.gaps g.incy g'.incy
  have gl := hA.last
  obtain ⟨len, hlen, xl, xn, xg, xa, xb⟩ := hA
  by_cases hb : xs[0]'(by omega) ≤ x ∧ x ≤ xs[xs.length - 1]'(by omega) ∧ ys[0]'(by omega) ≤ y ∧ y ≤ ys[ys.length - 1]'(by omega)
  · obtain ⟨a0, a1, b0, b1⟩ := hb
    obtain ⟨j, i, hj, hi, e0, e1, c0, c1⟩ := C08_range_covered g a0 a1 b0 b1
    rw [C08_bilinear B g hj hi e0 e1 c0 c1]
    rcases lt_trichotomy i n with hip | hip | hip
    · rw [C08_bilinear B g' (i := j) (j := i) hj (by omega) e0 e1 (by rw [xl _ hip.le]; exact c0) (by rw [xl _ hip]; exact c1), d1 j i (by omega) (by omega) (by omega) hip.le,
        d1 (j + 1) i (by omega) (by omega) (by omega) hip.le, d1 j (i + 1) (by omega) (by omega) (by omega) hip, d1 (j + 1) (i + 1) (by omega) (by omega) (by omega) hip,
        xl i hip.le, xl (i + 1) hip]
    · subst hip
      rw [← bilinear_transpose (x0 := xs[j])]
      rcases le_total y c with hxc | hxc
      · rw [C08_bilinear B g' (i := j) (j := i) hj (by omega) e0 e1 (by rw [xl _ le_rfl]; exact c0) (by rw [xn]; exact hxc), ← bilinear_transpose, d1 j i (by omega) (by omega) (by omega) le_rfl,
          d1 (j + 1) i (by omega) (by omega) (by omega) le_rfl, d2 j (by omega) (by omega) (by omega) hi, d2 (j + 1) (by omega) (by omega) (by omega) hi, xl _ le_rfl, xn, xa, xb,
          bilinear_cut_left hca hba]
      · rw [C08_bilinear B g' (i := j) (j := i + 1) hj (by omega) e0 e1 (by rw [xn]; exact hxc) (by rw [xg _ (by omega) (by omega)]; exact c1), ← bilinear_transpose, d3 j _ (by omega) (by omega) hi (by omega),
          d3 (j + 1) _ (by omega) (by omega) hi (by omega), d2 j (by omega) (by omega) (by omega) hi, d2 (j + 1) (by omega) (by omega) (by omega) hi, xn, xg _ (by omega) hi, xa, xb,
          bilinear_cut_right hbc hba]
    · rw [C08_bilinear B g' (i := j) (j := i + 1) hj (by omega) e0 e1 (by rw [xg _ (by omega)]; exact c0) (by rw [xg _ (by omega)]; exact c1), d3 j i (by omega) (by omega) (by omega) hip,
        d3 (j + 1) i (by omega) (by omega) (by omega) hip, d3 j (i + 1) (by omega) (by omega) hi (by omega), d3 (j + 1) (i + 1) (by omega) (by omega) hi (by omega), xg i hip (by omega),
        xg (i + 1) (by omega) hi]
  · rcases h with rfl | h
    · have hout : x < xs[0]'(by omega) ∨ xs[xs.length - 1]'(by omega) < x ∨ y < ys[0]'(by omega) ∨ ys[ys.length - 1]'(by omega) < y := by
        by_contra hc
        push Not at hc
        exact hb ⟨hc.1, hc.2.1, hc.2.2.1, hc.2.2.2⟩
      rw [C10_checked_aborts_partial g hout, C10_checked_aborts_partial g' (by rw [xl 0 (Nat.zero_le _), gl]; exact hout)]
    · exact absurd h hb

/-- `data'` is `data` with one more column of nodes, at `c` between `a` and `b` on the first axis, that carries the values of the segments there. -/
structure Spec.ColumnAdded {p q ys data data' : List K} {a c b : K} (g : Grid (p ++ a :: b :: q) ys data) (g' : Grid (p ++ a :: c :: b :: q) ys data') : Prop where
  before : ∀ i j (hi : i ≤ p.length) (hj : j < ys.length), g'.at i j (by simp; omega) hj = g.at i j (by simp; omega) hj
  new : ∀ j (hj : j < ys.length), g'.at (p.length + 1) j (by simp) hj = line a (g.at p.length j (by simp) hj) b (g.at (p.length + 1) j (by simp) hj) c
  after : ∀ i j (_ : p.length < i) (hi' : i < (p ++ a :: b :: q).length) (hj : j < ys.length), g'.at (i + 1) j (by simp at hi' ⊢; omega) hj = g.at i j hi' hj

/-- The same for a row of nodes, at `c` between `a` and `b` on the second axis. -/
structure Spec.RowAdded {xs p q data data' : List K} {a c b : K} (g : Grid xs (p ++ a :: b :: q) data) (g' : Grid xs (p ++ a :: c :: b :: q) data') : Prop where
  before : ∀ i j (hi : i < xs.length) (hj : j ≤ p.length), g'.at i j hi (by simp; omega) = g.at i j hi (by simp; omega)
  new : ∀ i (hi : i < xs.length), g'.at i (p.length + 1) hi (by simp) = line a (g.at i p.length hi (by simp)) b (g.at i (p.length + 1) hi (by simp)) c
  after : ∀ i j (hi : i < xs.length) (_ : p.length < j) (hj' : j < (p ++ a :: b :: q).length), g'.at i (j + 1) hi (by simp at hj' ⊢; omega) = g.at i j hi hj'

/-- C208: a column of nodes added to the grid of `Interp2d`, with the values of the segments it cuts, changes nothing in the box; with assertions it changes nothing
anywhere. -/
theorem C208_interp2d_first (B : Build) {p q ys data data' : List K} {a c b : K} (g : Grid (p ++ a :: b :: q) ys data) (g' : Grid (p ++ a :: c :: b :: q) ys data')
    (hd : ColumnAdded g g') (x y : K)
    (h : B = ⟨true⟩ ∨ (p ++ a :: b :: q)[0]'(by simp) ≤ x ∧ x ≤ (p ++ a :: b :: q)[(p ++ a :: b :: q).length - 1]'(by simp) ∧
      ys[0]'(by have := g.twoy; omega) ≤ y ∧ y ≤ ys[ys.length - 1]'(by have := g.twoy; omega)) :
    interp2d B .LINEAR (p ++ a :: c :: b :: q) ys data' x y = interp2d B .LINEAR (p ++ a :: b :: q) ys data x y :=
  interp2d_column B g g' (addedAt p q a c b) (fun i j _ _ h hj => hd.before i j h hj) (fun j _ _ _ hj => hd.new j hj) (fun i j _ h2 h hj => hd.after i j h h2 hj) x y h

/-- C208: ... and so does a row. -/
theorem C208_interp2d_second (B : Build) {xs p q data data' : List K} {a c b : K} (g : Grid xs (p ++ a :: b :: q) data) (g' : Grid xs (p ++ a :: c :: b :: q) data')
    (hd : RowAdded g g') (x y : K)
    (h : B = ⟨true⟩ ∨ xs[0]'(by have := g.twox; omega) ≤ x ∧ x ≤ xs[xs.length - 1]'(by have := g.twox; omega) ∧
      (p ++ a :: b :: q)[0]'(by simp) ≤ y ∧ y ≤ (p ++ a :: b :: q)[(p ++ a :: b :: q).length - 1]'(by simp)) :
    interp2d B .LINEAR xs (p ++ a :: c :: b :: q) data' x y = interp2d B .LINEAR xs (p ++ a :: b :: q) data x y :=
  interp2d_row B g g' (addedAt p q a c b) (fun i j hi _ _ h => hd.before i j hi h) (fun i hi _ _ _ => hd.new i hi) (fun i j hi _ h2 h => hd.after i j hi h h2) x y h

/-- A column at `1` added to the data `0, 2; 4, 10` of the square `[0, 2] × [0, 1]`. -/
example : interp2d ⟨true⟩ .LINEAR ([] ++ 0 :: 1 :: 2 :: [] : List ℚ) [0, 1] [0, 2, 2, 6, 4, 10] (1 / 2) (1 / 2) = .ok (5 / 2) := by
  rw [C208_interp2d_first ⟨true⟩ (p := []) (q := []) (data := [0, 2, 4, 10]) ⟨by simp, by simp, by simp, by simp, rfl⟩ ⟨by simp, by simp, by simp, by simp, rfl⟩ ⟨?_, ?_, ?_⟩ _ _ (Or.inl rfl)]
  · decide +kernel
  · intro i j hi hj
    obtain rfl : i = 0 := by simpa using hi
    simp at hj
    interval_cases j <;> rfl
  · intro j hj
    simp at hj
    interval_cases j <;> simp [Grid.at, line] <;> norm_num
  · intro i j hi hi' hj
    simp at hi hi' hj
    obtain rfl : i = 1 := by omega
    interval_cases j <;> rfl

end two

/-! ## Regular grids of any dimension -/

section grid
open RGI NDInterp
variable {K : Type} [Field K] [LinearOrder K] [IsStrictOrderedRing K]

/-- The values along an axis, with one more between positions `n` and `n + 1`, a part `t` of the way from one to the other. -/
def Spec.withAdded (n : Nat) (t : K) (f : Nat → K) (k : Nat) : K := if k ≤ n then f k else if k = n + 1 then f n + t * (f (n + 1) - f n) else f (k - 1)

theorem withAdded_le {n : Nat} {t : K} {f : Nat → K} {k : Nat} (h : k ≤ n) : withAdded n t f k = f k := if_pos h

theorem withAdded_new {n : Nat} {t : K} {f : Nat → K} : withAdded n t f (n + 1) = f n + t * (f (n + 1) - f n) := by
  unfold withAdded
  rw [if_neg (by omega), if_pos rfl]

theorem withAdded_gt {n : Nat} {t : K} {f : Nat → K} {k : Nat} (h : n < k) : withAdded n t f (k + 1) = f k := by
  unfold withAdded
  rw [if_neg (by omega), if_neg (by omega), Nat.add_sub_cancel]

theorem AxisRes.added {p q : List K} {a c b : K} (hinc : (p ++ a :: b :: q).Pairwise (· < ·)) (hinc' : (p ++ a :: c :: b :: q).Pairwise (· < ·)) {x y y' : K} {k k' : Int} {lo hi lo' hi' : Nat}
    (h : AxisRes (p ++ a :: b :: q) x k y lo hi) (h' : AxisRes (p ++ a :: c :: b :: q) x k' y' lo' hi') (f : Nat → K) :
    withAdded p.length ((c - a) / (b - a)) f lo' + y' * (withAdded p.length ((c - a) / (b - a)) f hi' - withAdded p.length ((c - a) / (b - a)) f lo') = f lo + y * (f hi - f lo) := by
  have xl : ∀ k, k ≤ p.length → (p ++ a :: c :: b :: q)[k]? = (p ++ a :: b :: q)[k]? := fun k => added_le p a c b q
  have xn : (p ++ a :: c :: b :: q)[p.length + 1]? = some c := added_new p a c b q
  have xg : ∀ k, p.length < k → (p ++ a :: c :: b :: q)[k + 1]? = (p ++ a :: b :: q)[k]? := fun k => added_ge p a c b q
  have xa : (p ++ a :: b :: q)[p.length]? = some a := added_a p a b q
  have xb : (p ++ a :: b :: q)[p.length + 1]? = some b := added_b p a b q
  obtain ⟨hca, hbc, hba⟩ := (addedAt p q a c b).gaps hinc hinc'
  have len : (p ++ a :: c :: b :: q).length = (p ++ a :: b :: q).length + 1 := by simp; omega
  have hlen : p.length + 1 < (p ++ a :: b :: q).length := by simp
  generalize p ++ a :: c :: b :: q = xs' at *
  generalize p ++ a :: b :: q = xs at *
  cases h with
  | below z h0 hx =>
    obtain ⟨rfl, rfl, rfl⟩ := h'.det hinc' (AxisRes.below z ((xl 0 (Nat.zero_le _)).trans h0) hx)
    rw [withAdded_le (Nat.zero_le _)]
  | above z h0 hx =>
    obtain ⟨rfl, rfl, rfl⟩ := h'.det hinc' (AxisRes.above z (by
      have := xg (xs.length - 1) (by omega)
      rwa [show xs.length - 1 + 1 = xs'.length - 1 by omega, h0] at this) hx)
    rw [show xs'.length - 1 = xs.length - 1 + 1 by omega, withAdded_gt (by omega)]
  | inside lo u v h0 h1 ha hb =>
    have e := (AxisRes.inside lo u v h0 h1 ha hb).bracket hinc h0 h1 ha hb.le f
    rw [e]
    rcases lt_trichotomy lo p.length with hip | hip | hip
    · rw [h'.bracket hinc' ((xl _ hip.le).trans h0) ((xl _ hip).trans h1) ha hb.le, withAdded_le hip.le, withAdded_le hip]
    · subst hip
      obtain rfl : a = u := by rw [xa] at h0; exact Option.some_inj.1 h0
      obtain rfl : b = v := by rw [xb] at h1; exact Option.some_inj.1 h1
      rcases le_total x c with hxc | hxc
      · rw [h'.bracket hinc' ((xl _ le_rfl).trans h0) xn ha hxc, withAdded_le le_rfl, withAdded_new]
        exact line_cut_left hca hba _ _ x
      · rw [h'.bracket hinc' xn ((xg _ (Nat.lt_succ_self _)).trans h1) hxc hb.le, withAdded_gt (Nat.lt_succ_self _), withAdded_new]
        exact line_cut_right hbc hba _ _ x
    · rw [h'.bracket hinc' ((xg _ hip).trans h0) ((xg _ (by omega)).trans h1) ha hb.le, withAdded_gt hip, withAdded_gt (by omega)]

theorem cube_lin (ws : List (Nat × Nat × K)) (t : K) (F G : List Nat → K) : cube ws (fun is => F is + t * (G is - F is)) = cube ws F + t * (cube ws G - cube ws F) := by
  induction ws generalizing F G with
  | nil => rfl
  | cons w ws ih =>
    obtain ⟨lo, hi, y⟩ := w
    simp only [cube, ih]
    ring

theorem cube_withAdded (ws : List (Nat × Nat × K)) (n : Nat) (t : K) (F : List Nat → K) (k : Nat) :
    cube ws (fun is => withAdded n t (fun i => F (i :: is)) k) = withAdded n t (fun i => cube ws fun is => F (i :: is)) k := by
  unfold withAdded
  split_ifs
  · rfl
  · exact cube_lin ws t _ _
  · rfl

theorem cube_added {gs : List (List K)} {p q : List K} {a c b : K} (hinc : (p ++ a :: b :: q).Pairwise (· < ·)) (hinc' : (p ++ a :: c :: b :: q).Pairwise (· < ·)) {F F' : List Nat → K}
    {ws vs : List (Nat × Nat × K)} (hl : ws.length = gs.length) {x y y' : K} {k k' : Int} {lo hi lo' hi' : Nat}
    (h : AxisRes (p ++ a :: b :: q) x k y lo hi) (h' : AxisRes (p ++ a :: c :: b :: q) x k' y' lo' hi')
    (hF : ∀ r k s, r.length = gs.length → F' (r ++ k :: s) = withAdded p.length ((c - a) / (b - a)) (fun i => F (r ++ i :: s)) k) :
    cube (ws ++ (lo', hi', y') :: vs) F' = cube (ws ++ (lo, hi, y) :: vs) F := by
  induction ws generalizing F F' gs with
  | nil =>
    have hn : gs = [] := List.length_eq_zero_iff.1 hl.symm
    subst hn
    have e : ∀ j, (fun q => F' (j :: q)) = fun s => withAdded p.length ((c - a) / (b - a)) (fun i => F (i :: s)) j := fun j => funext fun s => hF [] j s rfl
    simp only [List.nil_append, cube, e, cube_withAdded]
    exact AxisRes.added hinc hinc' h h' (fun i => cube vs fun q => F (i :: q))
  | cons v ws ih =>
    cases gs with
    | nil => simp at hl
    | cons g0 gs =>
      obtain ⟨a0, b0, y0⟩ := v
      have e : ∀ k, cube (ws ++ (lo', hi', y') :: vs) (fun is => F' (k :: is)) = cube (ws ++ (lo, hi, y) :: vs) (fun is => F (k :: is)) := fun k =>
        ih (gs := gs) (by simpa using hl) fun p i q hp => by simpa using hF (k :: p) i q (by simp [hp])
      simp only [List.cons_append, cube, e]

theorem inBox_added {p q : List K} {a c b : K} {hs : List (List K)} {x : K} {y : List K} : InBox ((p ++ a :: c :: b :: q) :: hs) (x :: y) ↔ InBox ((p ++ a :: b :: q) :: hs) (x :: y) := by
  have e1 : (p ++ a :: c :: b :: q).head? = (p ++ a :: b :: q).head? := by cases p <;> rfl
  have e2 : (p ++ a :: c :: b :: q).getLast? = (p ++ a :: b :: q).getLast? := by
    simp [List.getLast?_append, List.getLast?_cons]
  constructor
  · intro h
    cases h with
    | cons h1 h2 h3 h4 h5 => exact .cons (e1 ▸ h1) (e2 ▸ h2) h3 h4 h5
  · intro h
    cases h with
    | cons h1 h2 h3 h4 h5 => exact .cons (e1.symm ▸ h1) (e2.symm ▸ h2) h3 h4 h5

/-- C208: one more coordinate on one axis of a regular grid, of any number of axes, whose nodes carry the values of the segments they cut, changes no result of the
multilinear interpolation, inside or outside the box, with and without check of the bounds. -/
theorem C208_grid {dim : Nat} {gs hs : List (List K)} {p q : List K} {a c b : K} {F F' : List Nat → K} {s s' : RGI K}
    (h : Loaded dim (gs ++ (p ++ a :: b :: q) :: hs) F s) (h' : Loaded dim (gs ++ (p ++ a :: c :: b :: q) :: hs) F' s')
    (hF : ∀ r k s, r.length = gs.length → F' (r ++ k :: s) = withAdded p.length ((c - a) / (b - a)) (fun i => F (r ++ i :: s)) k)
    {x : List K} (hx : x.length = dim) (bound_check : Bool) : interpolate s' x bound_check = interpolate s x bound_check := by
  obtain ⟨hg, hd, _, hF1, _⟩ := Loaded.fields h
  obtain ⟨hg', hd', _, hF2, _⟩ := Loaded.fields h'
  have l1 : x.length = (gs ++ (p ++ a :: b :: q) :: hs).length := by omega
  have l2 : x.length = (gs ++ (p ++ a :: c :: b :: q) :: hs).length := by omega
  have hf : interpolate s' x false = interpolate s x false := by
    obtain ⟨cs, ys, ws, hr, he⟩ := interp_cube hg hF1 l1
    obtain ⟨cs', ys', ws', hr', he'⟩ := interp_cube hg' hF2 l2
    rw [interpolate_loaded h, interpolate_loaded h', he, he']
    obtain ⟨x₁, x₂, cs₁, cs₂, ys₁, ys₂, ws₁, ws₂, e1, e2, r1, r2⟩ := AxesRes.split hr
    obtain ⟨m1, m2⟩ := axesRes_len r1
    obtain ⟨x₁', x₂', cs₁', cs₂', ys₁', ys₂', ws₁', ws₂', e1', e2', r1', r2'⟩ := AxesRes.split hr'
    obtain ⟨m1', m2'⟩ := axesRes_len r1'
    obtain ⟨rfl, e3'⟩ := List.append_inj (e1.symm.trans e1') (by omega)
    subst e3'
    cases r2 with
    | cons a1 r3 =>
      cases r2' with
      | cons a2 r4 =>
        subst e2 e1
        rw [cube_det hg' l2 hr' (AxesRes.append r1 (.cons a2 r3)) F',
          cube_added (hg.increasing _ (by simp)) (hg'.increasing _ (by simp)) m2 a1 a2 hF]
  cases bound_check with
  | false => exact hf
  | true =>
    obtain ⟨a1, a2⟩ := interpolate_checked h (x := x) (by omega)
    obtain ⟨b1, b2⟩ := interpolate_checked h' (x := x) (by omega)
    have hiff : InBox (gs ++ (p ++ a :: c :: b :: q) :: hs) x ↔ InBox (gs ++ (p ++ a :: b :: q) :: hs) x := by
      obtain ⟨x1, x2, rfl, hl1⟩ : ∃ x1 x2, x = x1 ++ x2 ∧ x1.length = gs.length := ⟨x.take gs.length, x.drop gs.length, (List.take_append_drop _ _).symm, by simp at l1 ⊢; omega⟩
      cases x2 with
      | nil => simp at l1; omega
      | cons t x2 => rw [inBox_append hl1, inBox_append hl1, inBox_added]
    by_cases hb : InBox (gs ++ (p ++ a :: b :: q) :: hs) x
    · rw [a1 hb, b1 (hiff.2 hb), hf]
    · rw [a2 hb, b2 (fun hc => hb (hiff.1 hc))]

/-- The hypotheses are met: a coordinate `15` added to the second axis of the data `5 i + j²` on a grid of `3 × 3` nodes. -/
example : ∃ (F F' : List Nat → ℚ) (s s' : RGI ℚ), Loaded 2 ([[0, 1, 3]] ++ ([] ++ 10 :: 20 :: [40]) :: []) F s ∧ Loaded 2 ([[0, 1, 3]] ++ ([] ++ 10 :: 15 :: 20 :: [40]) :: []) F' s' ∧
    (∀ r k s, r.length = ([[0, 1, 3]] : List (List ℚ)).length → F' (r ++ k :: s) = withAdded ([] : List ℚ).length ((15 - 10) / (20 - 10)) (fun i => F (r ++ i :: s)) k) ∧
    F [1, 1] = 6 ∧ F' [1, 1] = 11 / 2 ∧ F' [1, 2] = 6 := by
  obtain ⟨s, hs⟩ := exists_loaded (grids := ([[0, 1, 3]] ++ ([] ++ 10 :: 20 :: [40]) :: [] : List (List ℚ))) ⟨by simp, by simp, by simp; norm_num⟩
    (fun i => ((i.getD 0 0 : Nat) : ℚ) * 5 + ((i.getD 1 0 : Nat) : ℚ) ^ 2)
  obtain ⟨s', hs'⟩ := exists_loaded (grids := ([[0, 1, 3]] ++ ([] ++ 10 :: 15 :: 20 :: [40]) :: [] : List (List ℚ))) ⟨by simp, by simp, by simp; norm_num⟩
    (fun i => withAdded 0 ((15 - 10) / (20 - 10)) (fun k => ((i.getD 0 0 : Nat) : ℚ) * 5 + (k : ℚ) ^ 2) (i.getD 1 0))
  refine ⟨_, _, s, s', hs, hs', ?_, ?_, ?_, ?_⟩
  · intro r k t hr
    obtain ⟨i, rfl⟩ := List.length_eq_one_iff.1 hr
    simp
  · norm_num
  · simp [withAdded]; norm_num
  · simp [withAdded]; norm_num

/-- The interpolation on simplices is not of this kind: the data of `x y` on the unit square, and the same data with a column at `1/2`, differ at `(5/8, 3/4)`. -/
theorem C208_simplex_differs : ∃ sort, IsSort sort ∧ ∃ t t', NDInterp.new ([[0, 1], [0, 1]] : List (List ℚ)) [0, 0, 0, 1] = .ok t ∧
    NDInterp.new ([[0, 1 / 2, 1], [0, 1]] : List (List ℚ)) [0, 0, 0, 1 / 2, 0, 1] = .ok t' ∧
    interpSimplex sort t [5 / 8, 3 / 4] = .ok (5 / 8) ∧ interpSimplex sort t' [5 / 8, 3 / 4] = .ok (1 / 2) :=
  ⟨sortPairs, sortPairs_isSort, ⟨[[0, 1], [0, 1]], [0, 0, 0, 1]⟩, ⟨[[0, 1 / 2, 1], [0, 1]], [0, 0, 0, 1 / 2, 0, 1]⟩, rfl, rfl, by decide +kernel, by decide +kernel⟩

end grid
end MU
