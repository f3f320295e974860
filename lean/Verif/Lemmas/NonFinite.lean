import Verif.Spec.NonFinite
import Verif.Lemmas.Interp2d
import Verif.Lemmas.LinterpCube
import Verif.Lemmas.RegularGridHistory
import Verif.Lemmas.Nearest

/-! The functions of `Model/NonFinite.lean` agree with those of the other models on finite coordinates; what they do on the other ones. -/

set_option linter.unusedSectionVars false

namespace MU

open MU.Spec Dbl

variable {K : Type} [Field K] [LinearOrder K] [IsStrictOrderedRing K]

namespace Dbl

@[simp] theorem lt_num (a b : K) : lt (num a) (num b) = decide (a < b) := rfl
@[simp] theorem le_num (a b : K) : le (num a) (num b) = decide (a ≤ b) := rfl
@[simp] theorem add_num (a b : K) : add (num a) (num b) = num (a + b) := rfl
@[simp] theorem mul_num (a b : K) : mul (num a) (num b) = num (a * b) := rfl
@[simp] theorem sub_num (a b : K) : sub (num a) (num b) = num (a - b) := by simp [sub, neg, sub_eq_add_neg]

theorem divNum_num (a d : K) : divNum (num a) d = num <$> fdiv a d := by
  unfold divNum fdiv
  split
  · rfl
  · simp [div_eq_mul_inv]

theorem lowerBound_num (l : List K) (x : K) : Dbl.lowerBound l (num x) = MU.lowerBound l x := by
  simp [Dbl.lowerBound, MU.lowerBound, partitionedLT]

theorem upperBound_num (l : List K) (x : K) : Dbl.upperBound l (num x) = MU.upperBound l x := by
  have e : (fun a : K => !lt (num x) (num a)) = fun a => decide (a ≤ x) := by
    funext a; by_cases h : a ≤ x <;> simp [h, not_lt.mpr, lt_of_not_ge]
  have e' : (fun a : K => lt (num x) (num a)) = fun a => decide (¬ a ≤ x) := by
    funext a; simp
  simp only [Dbl.upperBound, MU.upperBound, partitionedLE, e, e']
  rfl

omit [Field K] [LinearOrder K] [IsStrictOrderedRing K] in
theorem while_true (l : List K) : l.takeWhile (fun _ => true) = l ∧ l.dropWhile (fun _ => true) = [] := by
  induction l <;> simp_all

omit [Field K] [LinearOrder K] [IsStrictOrderedRing K] in
theorem while_false (l : List K) : l.takeWhile (fun _ => false) = [] ∧ l.dropWhile (fun _ => false) = l := by
  cases l <;> simp

theorem lowerBound_const (l : List K) {x : Dbl K} (c : Bool) (h : ∀ a, lt (num a) x = c) :
    Dbl.lowerBound l x = .ok (if c then l.length else 0) := by
  cases c <;> simp [Dbl.lowerBound, h, (while_true l).1, (while_true l).2, (while_false l).1, (while_false l).2]

theorem upperBound_nan (l : List K) : Dbl.upperBound l nan = .ok l.length := by
  have h : ∀ a : K, lt nan (num a) = false := fun _ => rfl
  simp [Dbl.upperBound, h, (while_true l).1, (while_true l).2]

/-- Sums and products with an operand that is not finite are not finite. -/
theorem add_notFinite {x y : Dbl K} (h : NotFinite x ∨ NotFinite y) : NotFinite (add x y) := by
  intro v hv
  cases x <;> cases y <;> simp_all [add, NotFinite]

theorem mul_notFinite {x y : Dbl K} (h : NotFinite x ∨ NotFinite y) : NotFinite (mul x y) := by
  intro v hv
  cases x <;> cases y <;> simp_all [mul, NotFinite] <;> split at hv <;> simp_all <;> split at hv <;> simp_all

end Dbl

/-! ## Agreement on numbers -/

theorem Interp1d.privEvalBaseD_num (s : Interp1d K K) (x : K) : privEvalBaseD s (num x) = num <$> privEvalBase s x := by
  simp only [privEvalBaseD, privEvalBase, lowerBound_num, mul_num, add_num, smul_eq_mul]
  cases deref s.xcoord <;> try rfl
  rename_i xs
  simp only [Res.ok_bind]
  cases MU.lowerBound xs x <;> try rfl
  rename_i k
  simp only [Res.ok_bind]
  cases vAt s.a ((if k = 0 then 1 else k) - 1) <;> try rfl
  simp only [Res.ok_bind]
  cases vAt s.b ((if k = 0 then 1 else k) - 1) <;> try rfl
  simp only [Res.ok_bind, Res.pure_eq, Res.map_ok, mul_comm]

/-- On numbers the 1D interpolators do what the model of C01-C07 says. -/
theorem Interp1d.evalD_num (kind : Interp1dKind) (s : Interp1d K K) (x : K) : evalD kind s (num x) = num <$> eval kind s x := by
  cases kind
  · simp only [evalD, eval, privEvalLinear, lt_num, decide_eq_true_eq]
    cases readVar s.xmin <;> try rfl
    simp only [Res.ok_bind]
    split
    · rfl
    · cases readVar s.xmax <;> try rfl
      simp only [Res.ok_bind]
      split
      · rfl
      · exact privEvalBaseD_num s x
  · exact privEvalBaseD_num s x
  · simp only [evalD, eval, privEvalSaturate, lt_num, decide_eq_true_eq]
    cases readVar s.xmin <;> try rfl
    simp only [Res.ok_bind]
    cases readVar s.xmax <;> try rfl
    simp only [Res.ok_bind]
    rw [← privEvalBaseD_num]
    congr 1
    split_ifs <;> rfl

theorem Interp2d.evalAssertsD_num (B : Build) (s : Interp2d K) (x y : K) : evalAssertsD B s (num x) (num y) = evalAsserts B s x y := by
  simp only [evalAssertsD, evalAsserts, le_num, decide_eq_true_eq]

/-- On numbers the 2D interpolator does what the model of C08-C11 says. -/
theorem Interp2d.evalD_num (B : Build) (s : Interp2d K) (x y : K) : evalD B s (num x) (num y) = num <$> eval B s x y := by
  simp only [evalD, eval, evalAssertsD_num, lowerBound_num, mul_num, add_num]
  cases evalAsserts B s x y <;> try rfl
  cases deref s.xcoord <;> try rfl
  rename_i xs
  simp only [Res.ok_bind]
  cases MU.lowerBound xs x <;> try rfl
  cases deref s.ycoord <;> try rfl
  rename_i p ys
  simp only [Res.ok_bind]
  cases MU.lowerBound ys y <;> try rfl
  rename_i q
  simp only [Res.ok_bind]
  generalize (if q = 0 then 1 else q) + ((if p = 0 then 1 else p) - 1) * (s.ny - 1) - 1 = i
  cases vAt s.a1 i <;> try rfl
  cases vAt s.a2 i <;> try rfl
  cases vAt s.a3 i <;> try rfl
  cases vAt s.a4 i <;> rfl

namespace NDInterp

theorem findCellD_num (g : List K) (x : K) : findCellD g (num x) = findCell g x := by
  simp only [findCellD, findCell, lt_num, le_num, decide_eq_true_eq, upperBound_num]

theorem axisD_num (g : List K) (x : K) : axisD g (num x) = (fun p => (p.1, num p.2)) <$> axis g x := by
  simp only [axisD, axis, findCellD_num]
  cases findCell g x <;> try rfl
  rename_i c
  simp only [Res.ok_bind]
  split
  · rfl
  split
  · rfl
  cases vIdx g c.toNat <;> try rfl
  cases vIdx g (c + 1).toNat <;> try rfl
  rename_i a b
  simp only [Res.ok_bind, sub_num, divNum_num]
  cases fdiv (x - a) (b - a) <;> try rfl
  rename_i y
  simp only [Res.map_ok, Res.ok_bind, Res.pure_eq, lt_num, decide_eq_true_eq]
  split_ifs <;> rfl

/-- A coordinate and a number treated alike on an axis. -/
def Alike (g : List K) (x : Dbl K) (c : K) : Prop := axisD g x = (fun p => (p.1, num p.2)) <$> axis g c

theorem axesD_alike {grids : List (List K)} {x : List (Dbl K)} {c : List K} (h : List.Forall₂ (fun g p => Alike g p.1 p.2) grids (x.zip c))
    (hl : x.length = c.length) : axesD grids x = (fun p => (p.1, p.2.map num)) <$> axes grids c := by
  induction grids generalizing x c with
  | nil => rfl
  | cons g gs ih =>
    cases x with
    | nil => simp at h
    | cons x xs =>
      cases c with
      | nil => simp at hl
      | cons c cs =>
        simp only [List.zip_cons_cons, List.forall₂_cons] at h
        simp only [axesD, axes]
        rw [h.1, ih h.2 (by simpa using hl)]
        cases axis g c <;> try rfl
        cases axes gs cs <;> rfl

theorem unitcubeD_num : ∀ (f xi : List K), unitcubeD (f.map num) (xi.map num) = num <$> unitcube f xi
  | _, [] => rfl
  | f, [x] => by
    simp only [List.map_cons, List.map_nil, unitcubeD, unitcube, vIdx, List.getElem?_map]
    cases f[0]? <;> try rfl
    cases f[1]? <;> try rfl
    simp
  | f, x :: y :: rest => by
    simp only [List.map_cons, unitcubeD, unitcube, List.length_map, ← List.map_take, ← List.map_drop]
    have h1 := unitcubeD_num (f.take (f.length / 2)) (y :: rest)
    have h2 := unitcubeD_num (f.drop (f.length / 2)) (y :: rest)
    simp only [List.map_cons] at h1 h2
    rw [h1, h2]
    cases unitcube (f.take (f.length / 2)) (y :: rest) <;> try rfl
    cases unitcube (f.drop (f.length / 2)) (y :: rest) <;> try rfl
    simp

theorem interpMultilinearD_alike (t : NDInterp K) {x : List (Dbl K)} {c : List K}
    (h : List.Forall₂ (fun g p => Alike g p.1 p.2) t.grids (x.zip c)) (hl : x.length = c.length) :
    interpMultilinearD t x = num <$> interpMultilinear t c := by
  simp only [interpMultilinearD, interpMultilinear, axesD_alike h hl]
  cases axes t.grids c <;> try rfl
  rename_i p
  simp only [Res.map_ok, Res.ok_bind]
  generalize forRange 0 (1 <<< t.grids.length) _ _ = r
  cases r <;> try rfl
  simp only [Res.ok_bind, unitcubeD_num]

theorem alike_num (g : List K) (x : K) : Alike g (num x) x := axisD_num g x

theorem alike_ninf {g : List K} {a : K} (h : g.head? = some a) : Alike g ninf (a - 1) := by
  cases g with
  | nil => simp at h
  | cons b l =>
    simp only [List.head?_cons, Option.some.injEq] at h
    subst h
    simp [Alike, axisD, axis, findCellD, findCell, vIdx, Dbl.lt]

theorem alike_pinf {g : List K} {b : K} (h : g.getLast? = some b) (hinc : g.Pairwise (· < ·)) : Alike g pinf b := by
  have hl : 0 < g.length := by cases g <;> simp_all
  rw [List.getLast?_eq_getElem?, List.getElem?_eq_getElem (by omega), Option.some.injEq] at h
  have h0 : ¬ b < g[0] := not_lt.mpr (h ▸ getElem_le_of_pairwise hinc (Nat.zero_le _) (by omega))
  subst h
  have hc : ¬ (g.length : Int) - 1 = -1 := by omega
  simp only [Alike, axisD, axis, findCellD, findCell, vIdx_lt hl, vIdx_lt (show g.length - 1 < g.length by omega), Res.ok_bind, h0, le_refl]
  simp [Dbl.lt, Dbl.le, hc]

theorem alike_nan {g : List K} {b : K} (h : g.getLast? = some b) (hinc : g.Pairwise (· < ·)) : Alike g nan b := by
  have hl : 0 < g.length := by cases g <;> simp_all
  rw [List.getLast?_eq_getElem?, List.getElem?_eq_getElem (by omega), Option.some.injEq] at h
  have h0 : ¬ b < g[0] := not_lt.mpr (h ▸ getElem_le_of_pairwise hinc (Nat.zero_le _) (by omega))
  subst h
  have hc : ¬ (g.length : Int) - 1 = -1 := by omega
  simp only [Alike, axisD, axis, findCellD, findCell, vIdx_lt hl, vIdx_lt (show g.length - 1 < g.length by omega), Res.ok_bind, h0, le_refl]
  simp [Dbl.lt, Dbl.le, hc, upperBound_nan]

/-- A replaced point is the clamped version of a point treated alike. -/
theorem replaced_alike {grids : List (List K)} (hne : ∀ g ∈ grids, g ≠ []) (hinc : ∀ g ∈ grids, g.Pairwise (· < ·)) {x : List (Dbl K)} {x' : List K}
    (h : Replaced grids x x') : ∃ c y, List.Forall₂ (fun g p => Alike g p.1 p.2) grids (x.zip c) ∧ x.length = c.length ∧ c.length = grids.length ∧
      Clamped grids c y ∧ Clamped grids x' y := by
  induction h with
  | nil => exact ⟨[], [], .nil, rfl, rfl, .nil, .nil⟩
  | @num g gs c xs xs' h ih =>
    obtain ⟨cs, y, h1, h2, h3, h4, h5⟩ := ih (fun g' h' => hne g' (by simp [h'])) (fun g' h' => hinc g' (by simp [h']))
    have hl := List.length_pos_of_ne_nil (hne g (by simp))
    have ha : g.head? = some g[0] := by rw [List.head?_eq_getElem?]; exact List.getElem?_eq_getElem _
    have hb : g.getLast? = some g[g.length - 1] := by rw [List.getLast?_eq_getElem?]; exact List.getElem?_eq_getElem _
    exact ⟨c :: cs, _, .cons (alike_num g c) h1, by simp [h2], by simp [h3], .cons ha hb h4, .cons ha hb h5⟩
  | @ninf g gs a xs xs' ha h ih =>
    obtain ⟨cs, y, h1, h2, h3, h4, h5⟩ := ih (fun g' h' => hne g' (by simp [h'])) (fun g' h' => hinc g' (by simp [h']))
    have hl := List.length_pos_of_ne_nil (hne g (by simp))
    have hb : g.getLast? = some g[g.length - 1] := by rw [List.getLast?_eq_getElem?]; exact List.getElem?_eq_getElem _
    refine ⟨(a - 1) :: cs, max a (min (a - 1) g[g.length - 1]) :: y, .cons (alike_ninf ha) h1, by simp [h2], by simp [h3], .cons ha hb h4, ?_⟩
    have e : max a (min (a - 1) g[g.length - 1]) = max a (min a g[g.length - 1]) := by
      rw [max_eq_left ((min_le_left _ _).trans (by linarith)), max_eq_left (min_le_left _ _)]
    rw [e]
    exact .cons ha hb h5
  | @pinf g gs b xs xs' hb h ih =>
    obtain ⟨cs, y, h1, h2, h3, h4, h5⟩ := ih (fun g' h' => hne g' (by simp [h'])) (fun g' h' => hinc g' (by simp [h']))
    have hl := List.length_pos_of_ne_nil (hne g (by simp))
    have ha : g.head? = some g[0] := by rw [List.head?_eq_getElem?]; exact List.getElem?_eq_getElem _
    exact ⟨b :: cs, _, .cons (alike_pinf hb (hinc g (by simp))) h1, by simp [h2], by simp [h3], .cons ha hb h4, .cons ha hb h5⟩
  | @nan g gs b xs xs' hb h ih =>
    obtain ⟨cs, y, h1, h2, h3, h4, h5⟩ := ih (fun g' h' => hne g' (by simp [h'])) (fun g' h' => hinc g' (by simp [h']))
    have hl := List.length_pos_of_ne_nil (hne g (by simp))
    have ha : g.head? = some g[0] := by rw [List.head?_eq_getElem?]; exact List.getElem?_eq_getElem _
    exact ⟨b :: cs, _, .cons (alike_nan hb (hinc g (by simp))) h1, by simp [h2], by simp [h3], .cons ha hb h4, .cons ha hb h5⟩

end NDInterp

theorem exists_replaced {grids : List (List K)} (hne : ∀ g ∈ grids, g ≠ []) {x : List (Dbl K)} (hx : x.length = grids.length) :
    ∃ x', Replaced grids x x' := by
  induction grids generalizing x with
  | nil => exact ⟨[], by rw [List.length_eq_zero_iff.mp hx]; exact .nil⟩
  | cons g gs ih =>
    cases x with
    | nil => simp at hx
    | cons x xs =>
      obtain ⟨xs', h⟩ := ih (x := xs) (fun g' h' => hne g' (by simp [h'])) (by simpa using hx)
      have hp := List.length_pos_of_ne_nil (hne g (by simp))
      have ha : g.head? = some g[0] := by rw [List.head?_eq_getElem?]; exact List.getElem?_eq_getElem _
      have hb : g.getLast? = some g[g.length - 1] := by rw [List.getLast?_eq_getElem?]; exact List.getElem?_eq_getElem _
      cases x
      · exact ⟨_, .num h⟩
      · exact ⟨_, .pinf hb h⟩
      · exact ⟨_, .ninf ha h⟩
      · exact ⟨_, .nan hb h⟩

theorem RGI.boundCheckD_eq {grids : List (List K)} {l : List (K × K)} (hl : Limits grids l) {x : List (Dbl K)} (hx : x.length = grids.length) :
    (InBoxOrNaN grids x → boundCheckD l x = .ok ()) ∧ (¬ InBoxOrNaN grids x → boundCheckD l x = .throws .runtimeError) := by
  induction hl generalizing x with
  | nil => cases x <;> simp_all [boundCheckD, InBoxOrNaN.nil]
  | @cons g gs a b ls ha hb _ ih =>
    cases x with
    | nil => simp at hx
    | cons x xs =>
      have ih := ih (x := xs) (by simpa using hx)
      simp only [boundCheckD]
      cases x with
      | num x =>
        simp only [lt_num, decide_eq_true_eq]
        by_cases hin : x < a ∨ b < x
        · refine ⟨fun h => ?_, fun _ => by simp [hin]⟩
          cases h with
          | num ha' hb' h1 h2 _ =>
            rw [ha] at ha'; rw [hb] at hb'; cases ha'; cases hb'
            rcases hin with h | h
            · exact absurd h1 (not_le.mpr h)
            · exact absurd h2 (not_le.mpr h)
        · have hin' := hin
          rw [not_or, not_lt, not_lt] at hin'
          rw [if_neg hin]
          refine ⟨fun h => ?_, fun h => ih.2 fun h' => h (.num ha hb hin'.1 hin'.2 h')⟩
          cases h with
          | num _ _ _ _ h' => exact ih.1 h'
      | pinf =>
        refine ⟨fun h => (by cases h), fun _ => by simp [Dbl.lt]⟩
      | ninf =>
        refine ⟨fun h => (by cases h), fun _ => by simp [Dbl.lt]⟩
      | nan =>
        refine ⟨fun h => ?_, fun h => ?_⟩
        · cases h with
          | nan h' => simpa [Dbl.lt] using ih.1 h'
        · simpa [Dbl.lt] using ih.2 fun h' => h (.nan h')

namespace RGN

theorem nearestIndexD_num (g : List K) (x : K) : nearestIndexD g (num x) = nearestIndex g x := by
  simp only [nearestIndexD, nearestIndex, lt_num, le_num, decide_eq_true_eq, upperBound_num]

theorem nearestIndexD_ninf {g : List K} {a : K} (h : g.head? = some a) (hinc : g.Pairwise (· < ·)) :
    nearestIndexD g ninf = nearestIndex g a := by
  cases g with
  | nil => simp at h
  | cons b l =>
    simp only [List.head?_cons, Option.some.injEq] at h
    subst h
    obtain ⟨i, h1, p, h2, h3⟩ := nearestIndex_spec (g := b :: l) (by simp) hinc b
    have h4 := (h3 0 b (by simp)).1
    have h5 : b = p := by
      have h6 := abs_nonneg (b - p)
      simp only [sub_self, abs_zero] at h4
      linarith [abs_eq_zero.mp (le_antisymm h4 h6)]
    have h7 : i = 0 := by
      by_contra hc
      have := NDInterp.getElem?_lt hinc (show (b :: l)[0]? = some b by simp) h2 (by omega)
      exact absurd h5 (ne_of_lt this)
    rw [h1, h7]
    simp [nearestIndexD, vIdx, Dbl.lt]

theorem nearestIndexD_pinf {g : List K} {b : K} (h : g.getLast? = some b) (hinc : g.Pairwise (· < ·)) :
    nearestIndexD g pinf = nearestIndex g b := by
  have hl : 0 < g.length := by cases g <;> simp_all
  rw [List.getLast?_eq_getElem?, List.getElem?_eq_getElem (by omega), Option.some.injEq] at h
  have h0 : ¬ b < g[0] := not_lt.mpr (h ▸ getElem_le_of_pairwise hinc (Nat.zero_le _) (by omega))
  subst h
  simp only [nearestIndexD, nearestIndex, vIdx_lt hl, vIdx_lt (show g.length - 1 < g.length by omega), Res.ok_bind, h0, le_refl]
  simp [Dbl.lt, Dbl.le]

theorem nearestIndexD_nan {g : List K} (hne : g ≠ []) : nearestIndexD g nan = .ub := by
  have hl := List.length_pos_of_ne_nil hne
  have e : g.length - 1 + 1 = g.length := by omega
  simp only [nearestIndexD, vIdx_lt hl, vIdx_lt (show g.length - 1 < g.length by omega), Res.ok_bind, upperBound_nan, e, vIdx_ge (le_refl g.length)]
  simp [Dbl.lt, Dbl.le]

theorem nearestLoopD_eq {grids : List (List K)} (hinc : ∀ g ∈ grids, g.Pairwise (· < ·)) {x : List (Dbl K)} {x' : List K}
    (h : Replaced grids x x') (hn : nan ∉ x) : nearestLoopD grids x = nearestLoop grids x' := by
  induction h with
  | nil => rfl
  | num h ih =>
    simp only [nearestLoopD, nearestLoop, nearestIndexD_num]
    rw [ih (fun g' h' => hinc g' (by simp [h'])) (fun h' => hn (by simp [h']))]
  | ninf ha h ih =>
    simp only [nearestLoopD, nearestLoop, nearestIndexD_ninf ha (hinc _ (by simp))]
    rw [ih (fun g' h' => hinc g' (by simp [h'])) (fun h' => hn (by simp [h']))]
  | pinf ha h ih =>
    simp only [nearestLoopD, nearestLoop, nearestIndexD_pinf ha (hinc _ (by simp))]
    rw [ih (fun g' h' => hinc g' (by simp [h'])) (fun h' => hn (by simp [h']))]
  | nan _ _ _ => simp at hn

theorem nearestLoopD_nan {grids : List (List K)} (hne : ∀ g ∈ grids, g ≠ []) (hinc : ∀ g ∈ grids, g.Pairwise (· < ·)) {x : List (Dbl K)} {x' : List K}
    (h : Replaced grids x x') (hn : nan ∈ x) : nearestLoopD grids x = .ub := by
  have key : ∀ {g : List K} {gs : List (List K)} {x : Dbl K} {xs : List (Dbl K)} {c : K}, nearestIndexD g x = nearestIndex g c → g ≠ [] →
      g.Pairwise (· < ·) → nearestLoopD gs xs = .ub → nearestLoopD (g :: gs) (x :: xs) = .ub := by
    intro g gs x xs c h1 h2 h3 h4
    obtain ⟨i, h5, p, h6, _⟩ := nearestIndex_spec h2 h3 c
    simp only [nearestLoopD, h1, h5, Res.ok_bind, vIdx, h6, h4, Res.ub_bind]
  induction h with
  | nil => simp at hn
  | num h ih => 
    exact key (nearestIndexD_num _ _) (hne _ List.mem_cons_self) (hinc _ List.mem_cons_self)
      (ih (fun g' h' => hne g' (by simp [h'])) (fun g' h' => hinc g' (by simp [h'])) (by simpa using hn))
  | ninf ha h ih => 
    exact key (nearestIndexD_ninf ha (hinc _ List.mem_cons_self)) (hne _ List.mem_cons_self) (hinc _ List.mem_cons_self)
      (ih (fun g' h' => hne g' (by simp [h'])) (fun g' h' => hinc g' (by simp [h'])) (by simpa using hn))
  | pinf ha h ih => 
    exact key (nearestIndexD_pinf ha (hinc _ List.mem_cons_self)) (hne _ List.mem_cons_self) (hinc _ List.mem_cons_self)
      (ih (fun g' h' => hne g' (by simp [h'])) (fun g' h' => hinc g' (by simp [h'])) (by simpa using hn))
  | nan _ _ _ => simp [nearestLoopD, nearestIndexD_nan (hne _ (List.mem_cons_self))]

theorem surroundingIndexD_num (g : List K) (x : K) : surroundingIndexD g (num x) = surroundingIndex g x := by
  simp only [surroundingIndexD, surroundingIndex, lt_num, le_num, decide_eq_true_eq, upperBound_num]

theorem surroundingIndexD_nan {g : List K} {b : K} (h : g.getLast? = some b) (hinc : g.Pairwise (· < ·)) :
    surroundingIndexD g nan = surroundingIndex g b := by
  have hl : 0 < g.length := by cases g <;> simp_all
  rw [List.getLast?_eq_getElem?, List.getElem?_eq_getElem (by omega), Option.some.injEq] at h
  have h0 : ¬ b < g[0] := not_lt.mpr (h ▸ getElem_le_of_pairwise hinc (Nat.zero_le _) (by omega))
  subst h
  simp only [surroundingIndexD, surroundingIndex, vIdx_lt hl, vIdx_lt (show g.length - 1 < g.length by omega), Res.ok_bind, h0, le_refl,
    upperBound_nan]
  simp [Dbl.lt, Dbl.le]

theorem surroundingIndexD_pinf {g : List K} {b : K} (h : g.getLast? = some b) (hinc : g.Pairwise (· < ·)) :
    surroundingIndexD g pinf = surroundingIndex g b := by
  have hl : 0 < g.length := by cases g <;> simp_all
  rw [List.getLast?_eq_getElem?, List.getElem?_eq_getElem (by omega), Option.some.injEq] at h
  have h0 : ¬ b < g[0] := not_lt.mpr (h ▸ getElem_le_of_pairwise hinc (Nat.zero_le _) (by omega))
  subst h
  simp only [surroundingIndexD, surroundingIndex, vIdx_lt hl, vIdx_lt (show g.length - 1 < g.length by omega), Res.ok_bind, h0, le_refl]
  simp [Dbl.lt, Dbl.le]

theorem surroundingLoopD_eq {grids : List (List K)} (hinc : ∀ g ∈ grids, g.Pairwise (· < ·)) {x : List (Dbl K)} {x' : List K}
    (h : Replaced grids x x') (hn : ninf ∉ x) : surroundingLoopD grids x = surroundingLoop grids x' := by
  induction h with
  | nil => rfl
  | num h ih =>
    simp only [surroundingLoopD, surroundingLoop, surroundingIndexD_num]
    rw [ih (fun g' h' => hinc g' (by simp [h'])) (fun h' => hn (by simp [h']))]
  | ninf _ _ _ => simp at hn
  | pinf ha h ih =>
    simp only [surroundingLoopD, surroundingLoop, surroundingIndexD_pinf ha (hinc _ (by simp))]
    rw [ih (fun g' h' => hinc g' (by simp [h'])) (fun h' => hn (by simp [h']))]
  | nan ha h ih =>
    simp only [surroundingLoopD, surroundingLoop, surroundingIndexD_nan ha (hinc _ (by simp))]
    rw [ih (fun g' h' => hinc g' (by simp [h'])) (fun h' => hn (by simp [h']))]

end RGN

end MU
