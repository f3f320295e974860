import Verif.Props.Lipschitz
import Verif.Props.AccuracyChebyshev
import Verif.Props.Integration1d

set_option linter.unusedSectionVars false

/-! C120: the classes for the same job agree with one another. -/

namespace MU
open Spec NDInterp

variable {K : Type} [Field K] [LinearOrder K] [IsStrictOrderedRing K]

/-- C120: a regular grid of one axis is the interpolator LINEAR_SATURATE, at every point, and with its bound check the interpolator LINEAR, in the range. -/
theorem C120_one_axis (B : Build) {xs ys : List K} (ht : Table xs ys) {F : List Nat → K} {s : RGI K} (h : Loaded 1 [xs] F s)
    (hF : ∀ i (hi : i < ys.length), F [i] = ys[i]) (x : K) :
    (∃ v, RGI.interpolate s [x] false = .ok v ∧ interp1d B .LINEAR_SATURATE xs ys x = .ok v) ∧
    (xs[0]'(by have := ht.two; omega) ≤ x → x ≤ xs[xs.length - 1]'(by have := ht.two; omega) →
      ∃ v, RGI.interpolate s [x] true = .ok v ∧ interp1d B .LINEAR xs ys x = .ok v) := by
  obtain ⟨hg, hd, _, hH, _⟩ := RGI.Loaded.fields h
  have hs := ht.sizes
  obtain ⟨cs, ys', ws, hr, he⟩ := interp_cube hg hH (x := [x]) rfl
  have hval : ∀ i, i < xs.length → F [i] = ys.getD i 0 := fun i hi => by
    rw [hF i (by omega)]
    simp [List.getElem?_eq_getElem (show i < ys.length by omega)]
  cases hr with
  | @cons _ _ _ _ c _ y _ lo hi _ hr hn =>
    cases hn
    have hc : cube [(lo, hi, y)] F = ys.getD lo 0 + y * (ys.getD hi 0 - ys.getD lo 0) := by
      simp only [cube]
      rw [hval lo hr.lo_lt, hval hi hr.hi_lt]
    have hf : RGI.interpolate s [x] false = .ok (ys.getD lo 0 + y * (ys.getD hi 0 - ys.getD lo 0)) := by
      rw [RGI.interpolate_loaded h, he, hc]
    refine ⟨⟨_, hf, saturate_axis B ht hr⟩, fun h0 h1 => ⟨_, ?_, interp1d_axis B (by decide) ht h0 h1 hr⟩⟩
    rw [(RGI.interpolate_checked h rfl).1, hf]
    have h2 := ht.two
    exact .cons (by rw [List.head?_eq_getElem?]; exact List.getElem?_eq_getElem (by omega))
      (by rw [List.getLast?_eq_getElem?]; exact List.getElem?_eq_getElem (by omega)) h0 h1 .nil

/-- C120: a regular grid of two axes with its bound check is the interpolator `Interp2d`, in the box. -/
theorem C120_two_axes (B : Build) {xs ys data : List K} (g : Grid xs ys data) {F : List Nat → K} {s : RGI K} (h : Loaded 2 [xs, ys] F s)
    (hF : ∀ i j (hi : i < xs.length) (hj : j < ys.length), F [i, j] = g.at i j hi hj) {x y : K}
    (hx0 : xs[0]'(by have := g.twox; omega) ≤ x) (hx1 : x ≤ xs[xs.length - 1]'(by have := g.twox; omega))
    (hy0 : ys[0]'(by have := g.twoy; omega) ≤ y) (hy1 : y ≤ ys[ys.length - 1]'(by have := g.twoy; omega)) (bound_check : Bool) :
    ∃ v, RGI.interpolate s [x, y] bound_check = .ok v ∧ interp2d B .LINEAR xs ys data x y = .ok v := by
  obtain ⟨i, j, hi, hj, hxa, hxb, hya, hyb⟩ := C08_range_covered g hx0 hx1 hy0 hy1
  have hb : Brackets [xs, ys] [(i, xs[i], xs[i + 1]), (j, ys[j], ys[j + 1])] [x, y] :=
    .cons (List.getElem?_eq_getElem _) (List.getElem?_eq_getElem _) hxa hxb
      (.cons (List.getElem?_eq_getElem _) (List.getElem?_eq_getElem _) hya hyb .nil)
  have hf := C18_tensor_product h hb
  have hbox : InBox [xs, ys] [x, y] := by
    have h2 := g.twox
    have h2' := g.twoy
    exact .cons (by rw [List.head?_eq_getElem?]; exact List.getElem?_eq_getElem (by omega))
      (by rw [List.getLast?_eq_getElem?]; exact List.getElem?_eq_getElem (by omega)) hx0 hx1
      (.cons (by rw [List.head?_eq_getElem?]; exact List.getElem?_eq_getElem (by omega))
      (by rw [List.getLast?_eq_getElem?]; exact List.getElem?_eq_getElem (by omega)) hy0 hy1 .nil)
  have hv : RGI.interpolate s [x, y] bound_check = .ok (tensor [(i, xs[i], xs[i + 1]), (j, ys[j], ys[j + 1])] F [x, y]) := by
    cases bound_check with
    | false => exact hf
    | true => rw [(RGI.interpolate_checked h rfl).1 hbox, hf]
  refine ⟨_, hv, ?_⟩
  rw [C08_bilinear B g hi hj hxa hxb hya hyb]
  congr 1
  simp only [tensor, bilinear, line, smul_eq_mul]
  rw [hF i j (by omega) (by omega), hF (i + 1) j hi (by omega), hF i (j + 1) (by omega) hj, hF (i + 1) (j + 1) hi hj]
  ring

/-- C120: on the line of a node of the first axis `Interp2d` is the interpolator LINEAR of that row of the data. -/
theorem C120_row (B : Build) {xs ys data : List K} (g : Grid xs ys data) {i : Nat} (hi : i < xs.length) {y : K}
    (hy0 : ys[0]'(by have := g.twoy; omega) ≤ y) (hy1 : y ≤ ys[ys.length - 1]'(by have := g.twoy; omega)) :
    ∃ v, interp2d B .LINEAR xs ys data xs[i] y = .ok v ∧
      interp1d B .LINEAR ys ((List.range ys.length).map (fun j => data.getD (i * ys.length + j) 0)) y = .ok v := by
  have h2 := g.twoy
  have ht : Table ys ((List.range ys.length).map (fun j => data.getD (i * ys.length + j) 0)) := ⟨g.twoy, g.incy, by simp⟩
  obtain ⟨j, hj, h3, h4⟩ := Interp1d.exists_cell g.incy g.twoy hy0 hy1
  refine ⟨_, ?_, C01_piecewise_affine B (by decide) ht hj (by simpa using hj) h3 h4⟩
  have hd : ∀ j, (hj : j < ys.length) → data.getD (i * ys.length + j) 0 = g.at i j hi hj := fun j hj => by
    simp [Grid.at, List.getElem?_eq_getElem (g.idx_lt hi hj)]
  simp only [List.getElem_map, List.getElem_range]
  rw [hd j (by omega), hd (j + 1) hj]
  by_cases hl : i + 1 < xs.length
  · have hlt : xs[i] < xs[i + 1] := getElem_lt_of_pairwise g.incx (by omega) hl
    rw [C08_bilinear B g hl hj le_rfl hlt.le h3 h4]
    congr 1
    simp [bilinear, line]
  · have h2x := g.twox
    obtain ⟨k, rfl⟩ : ∃ k, i = k + 1 := ⟨i - 1, by omega⟩
    have hlt : xs[k] < xs[k + 1] := getElem_lt_of_pairwise g.incx (by omega) hi
    rw [C08_bilinear B g hi hj hlt.le le_rfl h3 h4]
    congr 1
    simp [bilinear, line, div_self (sub_pos.2 hlt).ne']

/-- C120: `Trapz` is the integral of what the linear interpolator returns. -/
theorem C120_trapz (B : Build) {m : InterpMethod} (hm : m ≠ .BSPLINE) {xs ys : List ℝ} (ht : Table xs ys) (h64 : ys.length < 2 ^ 64) {g : ℝ → ℝ}
    (hg : ∀ t, xs[0]'(by have := ht.two; omega) ≤ t → t ≤ xs[xs.length - 1]'(by have := ht.two; omega) → interp1d B m xs ys t = .ok (g t)) :
    trapz B xs ys = .ok (∫ t in (xs[0]'(by have := ht.two; omega))..(xs[xs.length - 1]'(by have := ht.two; omega)), g t) := by
  have h2 := ht.two
  have hs := ht.sizes
  have e : ∀ i (hi : i < xs.length), xs.getD i 0 = xs[i] := fun i hi => by simp [List.getElem?_eq_getElem hi]
  have e' : ∀ i (hi : i < ys.length), ys.getD i 0 = ys[i] := fun i hi => by simp [List.getElem?_eq_getElem hi]
  rw [← e 0 (by omega), ← e (xs.length - 1) (by omega)]
  refine C40_integral B xs ys (by omega) h64 hs (fun i hi => ?_) g (fun i hi t h1 h3 => ?_)
  · rw [e i (by omega), e (i + 1) hi]
    exact getElem_lt_of_pairwise ht.increasing (by omega) hi
  · rw [e i (by omega)] at h1
    rw [e (i + 1) hi] at h3
    have hv := C01_piecewise_affine B hm ht hi (by omega) h1 h3
    rw [hg t ((getElem_le_of_pairwise ht.increasing (by omega) (by omega)).trans h1)
      (h3.trans (getElem_le_of_pairwise ht.increasing (by omega) (by omega)))] at hv
    injection hv with hv
    rw [hv, e i (by omega), e (i + 1) hi, e' i (by omega), e' (i + 1) (by omega)]
    simp only [line, smul_eq_mul]
    ring

theorem insert_len {α : Type} (l : List α) {i : Nat} (hi : i + 1 ≤ l.length) (c : α) : (l.take (i + 1) ++ c :: l.drop (i + 1)).length = l.length + 1 := by
  simp
  omega

theorem insert_low {α : Type} (l : List α) {i k : Nat} (hi : i + 1 ≤ l.length) (c : α) (hk : k ≤ i) :
    (l.take (i + 1) ++ c :: l.drop (i + 1))[k]? = l[k]? := by
  rw [List.getElem?_append_left (by simp; omega), List.getElem?_take_of_lt (by omega)]

theorem insert_mid {α : Type} (l : List α) {i : Nat} (hi : i + 1 ≤ l.length) (c : α) : (l.take (i + 1) ++ c :: l.drop (i + 1))[i + 1]? = some c := by
  rw [List.getElem?_append_right (by simp)]
  simp [Nat.min_eq_left hi]

theorem insert_high {α : Type} (l : List α) {i k : Nat} (hi : i + 1 ≤ l.length) (c : α) (hk : i < k) :
    (l.take (i + 1) ++ c :: l.drop (i + 1))[k + 1]? = l[k]? := by
  rw [List.getElem?_append_right (by simp; omega)]
  have : k + 1 - (l.take (i + 1)).length = (k - (i + 1)) + 1 := by simp; omega
  rw [this, List.getElem?_cons_succ, List.getElem?_drop]
  congr 1
  omega

theorem insert_pairwise {l : List ℝ} (hl : l.Pairwise (· < ·)) {i : Nat} (hi : i + 1 < l.length) {c : ℝ} (h0 : l[i] < c) (h1 : c < l[i + 1]) :
    (l.take (i + 1) ++ c :: l.drop (i + 1)).Pairwise (· < ·) := by
  have hlow : ∀ a ∈ l.take (i + 1), a ≤ l[i] := fun a ha => by
    obtain ⟨k, hk, rfl⟩ := List.getElem_of_mem ha
    simp only [List.length_take] at hk
    rw [List.getElem_take]
    exact getElem_le_of_pairwise hl (by omega) (by omega)
  have hhigh : ∀ a ∈ l.drop (i + 1), l[i + 1] ≤ a := fun a ha => by
    obtain ⟨k, hk, rfl⟩ := List.getElem_of_mem ha
    simp only [List.length_drop] at hk
    rw [List.getElem_drop]
    exact getElem_le_of_pairwise hl (by omega) (by omega)
  rw [List.pairwise_append, List.pairwise_cons]
  refine ⟨hl.sublist (List.take_sublist _ _), ⟨fun a ha => h1.trans_le (hhigh a ha), hl.sublist (List.drop_sublist _ _)⟩, fun a ha b hb => ?_⟩
  rcases List.mem_cons.1 hb with rfl | hb
  · exact (hlow a ha).trans_lt h0
  · exact (hlow a ha).trans_lt (h0.trans (h1.trans_le (hhigh b hb)))

theorem line_split_left {a b a' b' c d : ℝ} (h0 : a < c) (h1 : c < a') (hd : d = line a b a' b' c) (t : ℝ) : line a b c d t = line a b a' b' t := by
  have : a' - a ≠ 0 := by linarith
  have : c - a ≠ 0 := by linarith
  subst hd
  simp only [line, smul_eq_mul]
  field_simp
  ring

theorem line_split_right {a b a' b' c d : ℝ} (h0 : a < c) (h1 : c < a') (hd : d = line a b a' b' c) (t : ℝ) : line c d a' b' t = line a b a' b' t := by
  have : a' - a ≠ 0 := by linarith
  have : a' - c ≠ 0 := by linarith
  subst hd
  simp only [line, smul_eq_mul]
  field_simp
  ring

/-- C120: inserting into the table a point which lies on the interpolant changes nothing: not the interpolant, and not the integral by `Trapz`. -/
theorem C120_insert (B : Build) {m : InterpMethod} (hm : m ≠ .BSPLINE) {xs ys : List ℝ} (ht : Table xs ys) (h64 : ys.length + 1 < 2 ^ 64) {i : Nat}
    (hi : i + 1 < xs.length) (hi' : i + 1 < ys.length) {c d : ℝ} (hc0 : xs[i] < c) (hc1 : c < xs[i + 1]) (hd : interp1d B m xs ys c = .ok d) :
    (∀ t, xs[0]'(by omega) ≤ t → t ≤ xs[xs.length - 1]'(by omega) →
      interp1d B m (xs.take (i + 1) ++ c :: xs.drop (i + 1)) (ys.take (i + 1) ++ d :: ys.drop (i + 1)) t = interp1d B m xs ys t) ∧
    trapz B (xs.take (i + 1) ++ c :: xs.drop (i + 1)) (ys.take (i + 1) ++ d :: ys.drop (i + 1)) = trapz B xs ys := by
  have hs := ht.sizes
  set xs' := xs.take (i + 1) ++ c :: xs.drop (i + 1) with hxs'
  set ys' := ys.take (i + 1) ++ d :: ys.drop (i + 1) with hys'
  have lx : xs'.length = xs.length + 1 := insert_len xs (by omega) c
  have ly : ys'.length = ys.length + 1 := insert_len ys (by omega) d
  have ht' : Table xs' ys' := ⟨by omega, insert_pairwise ht.increasing hi hc0 hc1, by omega⟩
  have at_ : ∀ {l : List ℝ} {k : Nat} {v : ℝ} (hk : k < l.length), l[k]? = some v → l[k] = v := fun hk h => by
    rw [List.getElem?_eq_getElem hk] at h
    exact Option.some.inj h
  have xlow : ∀ k (hk : k ≤ i), xs'[k]'(by omega) = xs[k] := fun k hk =>
    at_ (by omega) ((insert_low xs (by omega) c hk).trans (List.getElem?_eq_getElem (by omega)))
  have ylow : ∀ k (hk : k ≤ i), ys'[k]'(by omega) = ys[k] := fun k hk =>
    at_ (by omega) ((insert_low ys (by omega) d hk).trans (List.getElem?_eq_getElem (by omega)))
  have xmid : xs'[i + 1]'(by omega) = c := at_ (by omega) (insert_mid xs (by omega) c)
  have ymid : ys'[i + 1]'(by omega) = d := at_ (by omega) (insert_mid ys (by omega) d)
  have xhigh : ∀ k (hk : i < k) (hl : k < xs.length), xs'[k + 1]'(by omega) = xs[k] := fun k hk hl =>
    at_ (by omega) ((insert_high xs (by omega) c hk).trans (List.getElem?_eq_getElem hl))
  have yhigh : ∀ k (hk : i < k) (hl : k < ys.length), ys'[k + 1]'(by omega) = ys[k] := fun k hk hl =>
    at_ (by omega) ((insert_high ys (by omega) d hk).trans (List.getElem?_eq_getElem hl))
  have hdv : d = line xs[i] ys[i] xs[i + 1] ys[i + 1] c := by
    have := C01_piecewise_affine B hm ht hi hi' hc0.le hc1.le
    rw [hd] at this
    injection this
  have hlt : 0 < xs[i + 1] - xs[i] := by linarith
  have hlt0 : c - xs[i] ≠ 0 := by linarith
  have hlt1 : xs[i + 1] - c ≠ 0 := by linarith
  have main : ∀ t, xs[0]'(by omega) ≤ t → t ≤ xs[xs.length - 1]'(by omega) → interp1d B m xs' ys' t = interp1d B m xs ys t := by
    intro t h0 h1
    obtain ⟨k, hk, ha, hb⟩ := Interp1d.exists_cell ht.increasing ht.two h0 h1
    rw [C01_piecewise_affine B hm ht hk (by omega) ha hb]
    rcases Nat.lt_trichotomy k i with hki | rfl | hki
    · have := C01_piecewise_affine B hm ht' (i := k) (x := t) (by omega) (by omega) (by rw [xlow k (by omega)]; exact ha)
        (by rw [xlow (k + 1) (by omega)]; exact hb)
      rw [this, xlow k (by omega), xlow (k + 1) (by omega), ylow k (by omega), ylow (k + 1) (by omega)]
    · rcases le_total t c with htc | htc
      · have := C01_piecewise_affine B hm ht' (i := k) (x := t) (by omega) (by omega) (by rw [xlow k le_rfl]; exact ha) (by rw [xmid]; exact htc)
        rw [this, xlow k le_rfl, xmid, ylow k le_rfl, ymid]
        exact congrArg _ (line_split_left hc0 hc1 hdv t)
      · have := C01_piecewise_affine B hm ht' (i := k + 1) (x := t) (by omega) (by omega) (by rw [xmid]; exact htc)
          (by rw [xhigh (k + 1) (by omega) hk]; exact hb)
        rw [this, xmid, xhigh (k + 1) (by omega) hk, ymid, yhigh (k + 1) (by omega) (by omega)]
        exact congrArg _ (line_split_right hc0 hc1 hdv t)
    · have := C01_piecewise_affine B hm ht' (i := k + 1) (x := t) (by omega) (by omega) (by rw [xhigh k hki (by omega)]; exact ha)
        (by rw [xhigh (k + 1) (by omega) hk]; exact hb)
      rw [this, xhigh k hki (by omega), xhigh (k + 1) (by omega) hk, yhigh k hki (by omega), yhigh (k + 1) (by omega) (by omega)]
  refine ⟨main, ?_⟩
  have hv : ∀ t, ∃ v, xs[0]'(by omega) ≤ t → t ≤ xs[xs.length - 1]'(by omega) → interp1d B m xs ys t = .ok v := by
    intro t
    by_cases h : xs[0]'(by omega) ≤ t ∧ t ≤ xs[xs.length - 1]'(by omega)
    · obtain ⟨k, hk, ha, hb⟩ := Interp1d.exists_cell ht.increasing ht.two h.1 h.2
      exact ⟨_, fun _ _ => C01_piecewise_affine B hm ht hk (by omega) ha hb⟩
    · exact ⟨0, fun h0 h1 => absurd ⟨h0, h1⟩ h⟩
  choose g hg using hv
  have e0 : xs'[0]'(by omega) = xs[0]'(by omega) := xlow 0 (by omega)
  have e1 : xs'[xs'.length - 1]'(by omega) = xs[xs.length - 1]'(by omega) := by
    have := xhigh (xs.length - 1) (by omega) (by omega)
    rw [← this]
    congr 1
    omega
  rw [C120_trapz B hm ht (by omega) hg, C120_trapz B hm ht' (by omega) (g := g) (fun t h0 h1 => by
    rw [e0] at h0; rw [e1] at h1; rw [main t h0 h1]; exact hg t h0 h1), e0, e1]

/-! ## Examples -/

example : ∃ s, Loaded 2 [[(0 : ℝ), 1, 3], [10, 20]] realGridF s ∧ ∃ v, RGI.interpolate s [2, 15] true = .ok v ∧
    interp2d ⟨true⟩ .LINEAR [0, 1, 3] [10, 20] [(10 : ℝ), 20, 11, 21, 19, 29] 2 15 = .ok v := by
  obtain ⟨s, hs⟩ := realGridLoaded
  have g : Grid [(0 : ℝ), 1, 3] [10, 20] [(10 : ℝ), 20, 11, 21, 19, 29] := ⟨by simp, by simp, by norm_num, by norm_num, rfl⟩
  refine ⟨s, hs, C120_two_axes ⟨true⟩ g hs (fun i j hi hj => ?_) (by norm_num) (by norm_num) (by norm_num) (by norm_num) true⟩
  have hi : i < 3 := hi
  have hj : j < 2 := hj
  interval_cases i <;> interval_cases j <;> rfl

example : ∃ v, interp2d ⟨true⟩ .LINEAR [(0 : ℝ), 1, 3] [10, 20] [(10 : ℝ), 20, 11, 21, 19, 29] 1 13 = .ok v ∧
    interp1d ⟨true⟩ .LINEAR [(10 : ℝ), 20] [11, 21] 13 = .ok v := by
  have g : Grid [(0 : ℝ), 1, 3] [10, 20] [(10 : ℝ), 20, 11, 21, 19, 29] := ⟨by simp, by simp, by norm_num, by norm_num, rfl⟩
  simpa [List.range_succ] using C120_row ⟨true⟩ g (i := 1) (by simp) (y := 13) (by norm_num) (by norm_num)

theorem agreeTable : Table [(0 : ℝ), 1, 3] [(5 : ℝ), 7, 1] := ⟨by simp, by norm_num, rfl⟩

/-- Inserting the point `(2, 4)` of the second segment. -/
example : trapz ⟨true⟩ [(0 : ℝ), 1, 2, 3] [(5 : ℝ), 7, 4, 1] = trapz ⟨true⟩ [(0 : ℝ), 1, 3] [(5 : ℝ), 7, 1] := by
  have hd : interp1d ⟨true⟩ .LINEAR [(0 : ℝ), 1, 3] [(5 : ℝ), 7, 1] 2 = .ok 4 := by
    have := C01_piecewise_affine ⟨true⟩ (m := .LINEAR) (by decide) agreeTable (i := 1) (x := 2) (by simp) (by simp) (by norm_num) (by norm_num)
    rw [this]
    norm_num [line]
  exact (C120_insert ⟨true⟩ (m := .LINEAR) (by decide) agreeTable (by norm_num) (i := 1) (c := 2) (d := 4) (by simp) (by simp) (by norm_num) (by norm_num) hd).2

end MU
