import Verif.Props.Simplex
import Verif.Props.Accuracy
import Verif.Spec.Simplex
import Mathlib.Analysis.Calculus.MeanValue

set_option linter.unusedSectionVars false

/-!
# C159: accuracy of simplex interpolation, and the order given to equal fractions
-/

namespace MU
open Spec NDInterp

/-! ## Ties -/

section Ties
variable {K : Type} [Field K] [LinearOrder K] [IsStrictOrderedRing K]

/-- The current vertex after the axes of a list have been lowered does not depend on their order. -/
theorem modify_perm {l l' : List Nat} (h : l.Perm l') (v : List Int) :
    l.foldl (fun v d => v.modify d (· - 1)) v = l'.foldl (fun v d => v.modify d (· - 1)) v := by
  induction h generalizing v with
  | nil => rfl
  | cons a _ ih => exact ih _
  | swap a b l =>
    simp only [List.foldl_cons]
    congr 1
    apply List.ext_getElem?
    intro i
    simp only [List.getElem?_modify]
    cases v[i]? with
    | none => simp
    | some z => by_cases h1 : a = i <;> by_cases h2 : b = i <;> simp [h1, h2]
  | trans _ _ ih1 ih2 => rw [ih1, ih2]

/-- The sum of a walk: what comes from the steps, and from the vertex at the end. -/
theorem walk_sum_append (G : List Int → K) (l r : List (K × Nat)) (p : K) (v : List Int) :
    ((walkTerms (l ++ r) p v).map (fun w => w.1 * G w.2)).sum =
      ((walkTerms l p v).map (fun w => w.1 * G w.2)).sum
        - (1 - (l.map Prod.fst).getLastD p) * G ((l.map Prod.snd).foldl (fun v d => v.modify d (· - 1)) v)
        + ((walkTerms r ((l.map Prod.fst).getLastD p) ((l.map Prod.snd).foldl (fun v d => v.modify d (· - 1)) v)).map (fun w => w.1 * G w.2)).sum := by
  induction l generalizing p v with
  | nil => simp [walkTerms]
  | cons o l ih =>
    obtain ⟨ξ, d⟩ := o
    simp only [List.cons_append, walkTerms, List.map_cons, List.sum_cons, ih, List.foldl_cons, List.getLastD_cons]
    ring

/-- Steps that have all the same fraction. -/
theorem walk_sum_const (G : List Int → K) {l : List (K × Nat)} {ξ : K} (h : ∀ o ∈ l, o.1 = ξ) (hl : l ≠ []) (p : K) (v : List Int) :
    ((walkTerms l p v).map (fun w => w.1 * G w.2)).sum =
      (ξ - p) * G v + (1 - ξ) * G ((l.map Prod.snd).foldl (fun v d => v.modify d (· - 1)) v) := by
  induction l generalizing p v with
  | nil => exact absurd rfl hl
  | cons o l ih =>
    obtain ⟨ζ, d⟩ := o
    have hz : ζ = ξ := h _ List.mem_cons_self
    subst hz
    cases l with
    | nil => simp [walkTerms]
    | cons o' l =>
      have := ih (fun o ho => h o (List.mem_cons_of_mem _ ho)) (by simp) ζ (v.modify d (· - 1))
      simp only [walkTerms, List.map_cons, List.sum_cons, List.foldl_cons] at this ⊢
      rw [this]
      ring

/-- Two sorted lists of the same pairs give the same sum. -/
theorem walk_ties (G : List Int → K) : ∀ {l l' : List (K × Nat)}, l.Perm l' → l.Pairwise (fun a b => a.1 ≤ b.1) → l'.Pairwise (fun a b => a.1 ≤ b.1) →
    ∀ (p : K) (v : List Int), ((walkTerms l p v).map (fun w => w.1 * G w.2)).sum = ((walkTerms l' p v).map (fun w => w.1 * G w.2)).sum := by
  intro l
  induction hn : l.length using Nat.strong_induction_on generalizing l with
  | _ n ih =>
    intro l' hp hs hs' p v
    cases hl : l with
    | nil =>
      subst hl
      rw [List.nil_perm.1 hp]
    | cons o r =>
      have hne : l ≠ [] := by rw [hl]; simp
      have hne' : l' ≠ [] := fun e => hne (by rw [e] at hp; exact List.perm_nil.1 hp)
      rw [← hl]
      -- the part of the smallest fraction, and the rest
      have split : ∀ m : List (K × Nat), m.Pairwise (fun a b => a.1 ≤ b.1) → (∀ o' ∈ m, o.1 ≤ o'.1) →
          m = m.filter (fun a => a.1 = o.1) ++ m.filter (fun a => ¬ a.1 = o.1) := by
        intro m
        induction m with
        | nil => simp
        | cons a m ihm =>
          intro h1 h2
          rw [List.pairwise_cons] at h1
          by_cases ha : a.1 = o.1
          · rw [List.filter_cons_of_pos (by simpa using ha), List.filter_cons_of_neg (by simpa using ha), List.cons_append,
              ← ihm h1.2 (fun o' ho' => h2 o' (List.mem_cons_of_mem _ ho'))]
          · have hgt : ∀ b ∈ m, ¬ b.1 = o.1 := fun b hb e => by
              have := h1.1 b hb
              have h3 := h2 a List.mem_cons_self
              exact ha (le_antisymm (by rw [← e]; exact this) h3)
            rw [List.filter_cons_of_neg (by simpa using ha), List.filter_cons_of_pos (by simpa using ha),
              List.filter_eq_nil_iff.2 (fun b hb => by simpa using hgt b hb), List.nil_append,
              List.filter_eq_self.2 (fun b hb => by simpa using hgt b hb)]
      have hmin : ∀ o' ∈ l, o.1 ≤ o'.1 := by
        rw [hl]
        rw [hl, List.pairwise_cons] at hs
        intro o' ho'
        rcases List.mem_cons.1 ho' with rfl | ho'
        · exact le_refl _
        · exact hs.1 o' ho'
      have e1 := split l hs hmin
      have e2 := split l' hs' (fun o' ho' => hmin o' (hp.mem_iff.2 ho'))
      set A := l.filter (fun a => a.1 = o.1)
      set B := l.filter (fun a => ¬ a.1 = o.1)
      set A' := l'.filter (fun a => a.1 = o.1)
      set B' := l'.filter (fun a => ¬ a.1 = o.1)
      have hA : A.Perm A' := hp.filter _
      have hB : B.Perm B' := hp.filter _
      have cA : ∀ a ∈ A, a.1 = o.1 := fun a ha => by simpa using (List.mem_filter.1 ha).2
      have cA' : ∀ a ∈ A', a.1 = o.1 := fun a ha => by simpa using (List.mem_filter.1 ha).2
      have oA : o ∈ A := List.mem_filter.2 ⟨by rw [hl]; exact List.mem_cons_self, by simp⟩
      have nA : A ≠ [] := List.ne_nil_of_mem oA
      have nA' : A' ≠ [] := List.ne_nil_of_mem (hA.mem_iff.1 oA)
      have last : ∀ m : List (K × Nat), m ≠ [] → (∀ a ∈ m, a.1 = o.1) → (m.map Prod.fst).getLastD p = o.1 := by
        intro m hm hc
        rw [List.getLastD_eq_getLast?, List.getLast?_eq_some_getLast (by simpa using hm), Option.getD_some]
        have := List.getLast_mem (l := m.map Prod.fst) (by simpa using hm)
        obtain ⟨a, ha, e⟩ := List.mem_map.1 this
        rw [← e, hc a ha]
      have hv := modify_perm (hA.map Prod.snd) v
      have sB : B.Pairwise (fun a b => a.1 ≤ b.1) := hs.filter _
      have sB' : B'.Pairwise (fun a b => a.1 ≤ b.1) := hs'.filter _
      have hlen : B.length < n := by
        rw [← hn, e1, List.length_append]
        have := List.length_pos_of_ne_nil nA
        omega
      rw [e1, e2, walk_sum_append, walk_sum_append, last A nA cA, last A' nA' cA', walk_sum_const G cA nA, walk_sum_const G cA' nA', hv,
        ih B.length hlen rfl hB sB sB']

/-- C159: the value does not depend on the order in which the sort leaves equal fractions. -/
theorem C159_ties {grids : List (List K)} {values : List K} {F : List Nat → K} (hg : Axes grids) (hF : Holds (grids.map List.length) values F)
    {t : NDInterp K} (ht : NDInterp.new grids values = .ok t) {sort sort' : List (K × Nat) → List (K × Nat)} (hsort : IsSort sort) (hsort' : IsSort sort')
    {x : List K} (hx : x.length = grids.length) : interpSimplex sort t x = interpSimplex sort' t x := by
  have ht' : t = ⟨grids, values⟩ := by
    unfold NDInterp.new at ht
    rw [if_neg (by simpa using hF.size)] at ht
    cases ht; rfl
  subst ht'
  obtain ⟨cs, ys, ws, hr, H⟩ := simplex_terms_all hg hx
  rw [(H values F hF sort hsort).2.2, (H values F hF sort' hsort').2.2]
  obtain ⟨p1, s1⟩ := hsort ys.zipIdx
  obtain ⟨p2, s2⟩ := hsort' ys.zipIdx
  rw [walk_ties (fun u => F (sel ws u)) (p1.trans p2.symm) s1 s2]

/-- C159: data that change by at most `ε` change the value by at most `ε`, at every point, inside or outside of the box. -/
theorem C159_data {grids : List (List K)} {values values' : List K} {F F' : List Nat → K} (hg : Axes grids)
    (hF : Holds (grids.map List.length) values F) (hF' : Holds (grids.map List.length) values' F') {t t' : NDInterp K}
    (ht : NDInterp.new grids values = .ok t) (ht' : NDInterp.new grids values' = .ok t') {sort : List (K × Nat) → List (K × Nat)} (hsort : IsSort sort)
    {x : List K} (hx : x.length = grids.length) {ε : K} (hε : ∀ idx, Inside idx (grids.map List.length) → |F idx - F' idx| ≤ ε) :
    ∃ r r', interpSimplex sort t x = .ok r ∧ interpSimplex sort t' x = .ok r' ∧ |r - r'| ≤ ε := by
  have e1 : t = ⟨grids, values⟩ := by
    unfold NDInterp.new at ht
    rw [if_neg (by simpa using hF.size)] at ht
    cases ht; rfl
  have e2 : t' = ⟨grids, values'⟩ := by
    unfold NDInterp.new at ht'
    rw [if_neg (by simpa using hF'.size)] at ht'
    cases ht'; rfl
  subst e1 e2
  obtain ⟨cs, ys, ws, hr, H⟩ := simplex_terms_all hg hx
  obtain ⟨hw, -, h1⟩ := H values F hF sort hsort
  obtain ⟨-, -, h2⟩ := H values' F' hF' sort hsort
  refine ⟨_, _, h1, h2, ?_⟩
  have hs := walkTerms_sum (sort ys.zipIdx) 0 (List.replicate grids.length 1)
  have key : ∀ L : List (K × List Int), (∀ w ∈ L, 0 ≤ w.1 ∧ Bits grids.length w.2) →
      |(L.map (fun w => w.1 * F (sel ws w.2))).sum - (L.map (fun w => w.1 * F' (sel ws w.2))).sum| ≤ ε * (L.map (fun w => w.1)).sum := by
    intro L
    induction L with
    | nil => simp
    | cons w L ih =>
      intro hL
      have ih := ih (fun w hw => hL w (List.mem_cons_of_mem _ hw))
      obtain ⟨w0, wb⟩ := hL w List.mem_cons_self
      have b1 := mul_le_mul_of_nonneg_left (hε _ (isNode_inside (sel_isNode hr wb))) w0
      simp only [List.map_cons, List.sum_cons]
      rw [show w.1 * F (sel ws w.2) + (L.map (fun w => w.1 * F (sel ws w.2))).sum - (w.1 * F' (sel ws w.2) + (L.map (fun w => w.1 * F' (sel ws w.2))).sum)
        = w.1 * (F (sel ws w.2) - F' (sel ws w.2)) + ((L.map (fun w => w.1 * F (sel ws w.2))).sum - (L.map (fun w => w.1 * F' (sel ws w.2))).sum) by ring]
      refine (abs_add_le _ _).trans ?_
      rw [abs_mul, abs_of_nonneg w0]
      linarith
  have := key _ hw
  rw [hs] at this
  simpa using this

end Ties

/-! ## Points of the box -/

theorem InBox.seg {grids : List (List ℝ)} {x y : List ℝ} (hx : InBox grids x) (hy : InBox grids y) {t : ℝ} (h0 : 0 ≤ t) (h1 : t ≤ 1) :
    InBox grids (segL x y t) := by
  induction hx generalizing y with
  | nil => cases hy; exact .nil
  | @cons g gs x xs a b ha hb h2 h3 _ ih =>
    cases hy with
    | @cons _ _ y ys a' b' ha' hb' h2' h3' hys =>
      have ea : a' = a := by rw [ha] at ha'; exact (Option.some.inj ha').symm
      have eb : b' = b := by rw [hb] at hb'; exact (Option.some.inj hb').symm
      subst ea eb
      exact .cons ha hb (by nlinarith) (by nlinarith) (ih hys)

theorem IsNode.inBox {grids : List (List ℝ)} (hg : ∀ g ∈ grids, g.Pairwise (· < ·)) {idx : List Nat} {p : List ℝ} (h : IsNode grids idx p) :
    InBox grids p := by
  induction h with
  | nil => exact .nil
  | @cons g gs i is x xs h1 _ ih =>
    have hne : g ≠ [] := by rintro rfl; simp at h1
    have ha := List.head?_eq_some_head hne
    have hb := List.getLast?_eq_some_getLast hne
    obtain ⟨h2, h3⟩ := head_le_of_getElem? (hg g List.mem_cons_self) h1 ha hb
    exact .cons ha hb h2 h3 (ih fun g' h' => hg g' (List.mem_cons_of_mem _ h'))

theorem segL_zero {x y : List ℝ} (h : y.length = x.length) : segL x y 0 = x := by
  unfold segL
  induction x generalizing y with
  | nil => simp
  | cons a x ih =>
    cases y with
    | nil => simp at h
    | cons b y => rw [List.zipWith_cons_cons, ih (y := y) (by simpa using h)]; simp

theorem segL_one {x y : List ℝ} (h : y.length = x.length) : segL x y 1 = y := by
  unfold segL
  induction x generalizing y with
  | nil => simpa using (List.length_eq_zero_iff.1 h).symm
  | cons a x ih =>
    cases y with
    | nil => simp at h
    | cons b y => rw [List.zipWith_cons_cons, ih (y := y) (by simpa using h)]; simp

theorem dotL_seg (g x y : List ℝ) (t : ℝ) : dotL g (diffL (segL x y t) x) = t * dotL g (diffL y x) := by
  unfold dotL diffL segL
  induction x generalizing g y with
  | nil => simp
  | cons a x ih =>
    cases y with
    | nil => simp
    | cons b y =>
      cases g with
      | nil => simp
      | cons c g =>
        simp only [List.zipWith_cons_cons, List.sum_cons, ih g y]
        ring

theorem dotL_seg_seg (x y : List ℝ) (t : ℝ) : dotL (diffL (segL x y t) x) (diffL (segL x y t) x) = t ^ 2 * dotL (diffL y x) (diffL y x) := by
  unfold dotL diffL segL
  induction x generalizing y with
  | nil => simp
  | cons a x ih =>
    cases y with
    | nil => simp
    | cons b y =>
      simp only [List.zipWith_cons_cons, List.sum_cons, ih y]
      ring

/-- The error of the tangent plane. -/
theorem tangent_error {grids : List (List ℝ)} {f : List ℝ → ℝ} {G : List ℝ → List ℝ} {M : ℝ} (h : Curvature grids f G M) {x y : List ℝ}
    (hx : InBox grids x) (hy : InBox grids y) : |f y - f x - dotL (G x) (diffL y x)| ≤ M / 2 * dotL (diffL y x) (diffL y x) := by
  have hlen : y.length = x.length := by rw [inBox_len hx, inBox_len hy]
  set c := dotL (G x) (diffL y x)
  set D := dotL (diffL y x) (diffL y x)
  have hd := h.deriv x y hx hy
  have key := image_norm_le_of_norm_deriv_right_le_deriv_boundary (f := fun t => f (segL x y t) - f x - t * c)
    (f' := fun t => dotL (G (segL x y t)) (diffL y x) - c) (a := 0) (b := 1) (B := fun t => M / 2 * D * t ^ 2) (B' := fun t => M * D * t)
    (fun t ht => ((hd t ht).continuousWithinAt.sub continuousWithinAt_const).sub (continuousWithinAt_id.mul continuousWithinAt_const))
    (fun t ht => by
      have h1 : HasDerivWithinAt (fun t => f (segL x y t) - f x - t * c) (dotL (G (segL x y t)) (diffL y x) - c) (Set.Icc 0 1) t := by
        have h2 := ((hd t ⟨ht.1, ht.2.le⟩).sub_const (f x)).sub ((hasDerivWithinAt_id t (Set.Icc 0 1)).mul_const c)
        rw [one_mul] at h2
        exact h2
      exact h1.mono_of_mem_nhdsWithin (Icc_mem_nhdsGE_of_mem ht))
    (by simp [segL_zero hlen])
    (fun t => by
      have := (hasDerivAt_pow 2 t).const_mul (M / 2 * D)
      refine this.congr_deriv ?_
      norm_num
      ring)
    (fun t ht => by
      rcases eq_or_lt_of_le ht.1 with e | h0
      · rw [← e, segL_zero hlen]
        simp [c]
      · have hs := InBox.seg hx hy ht.1 ht.2.le
        have hb := h.bound x _ hx hs
        rw [dotL_seg, dotL_seg, dotL_seg_seg, ← mul_sub, abs_mul, abs_of_pos h0] at hb
        rw [Real.norm_eq_abs]
        have : t * |dotL (G (segL x y t)) (diffL y x) - c| ≤ t * (M * D * t) := by
          refine hb.trans (le_of_eq ?_)
          ring
        exact le_of_mul_le_mul_left this h0)
    (Set.right_mem_Icc.2 zero_le_one)
  simp only [segL_one hlen, one_mul, one_pow, mul_one, Real.norm_eq_abs] at key
  exact key

/-! ## Averages -/

/-- The weighted sum. -/
def expect (T : List (ℝ × List Nat × List ℝ)) (φ : List ℝ → ℝ) : ℝ := (T.map (fun t => t.1 * φ t.2.2)).sum

theorem expect_add (T : List (ℝ × List Nat × List ℝ)) (φ ψ : List ℝ → ℝ) : expect T (fun p => φ p + ψ p) = expect T φ + expect T ψ := by
  unfold expect
  induction T with
  | nil => simp
  | cons t T ih =>
    simp only [List.map_cons, List.sum_cons, ih]
    ring

theorem expect_mul (T : List (ℝ × List Nat × List ℝ)) (c : ℝ) (φ : List ℝ → ℝ) : expect T (fun p => c * φ p) = c * expect T φ := by
  unfold expect
  induction T with
  | nil => simp
  | cons t T ih =>
    simp only [List.map_cons, List.sum_cons, ih]
    ring

theorem expect_sum (T : List (ℝ × List Nat × List ℝ)) (n : Nat) (φ : Nat → List ℝ → ℝ) :
    expect T (fun p => ∑ d ∈ Finset.range n, φ d p) = ∑ d ∈ Finset.range n, expect T (φ d) := by
  unfold expect
  induction T with
  | nil => simp
  | cons t T ih =>
    simp only [List.map_cons, List.sum_cons, Finset.sum_add_distrib]
    rw [← ih, Finset.mul_sum]

theorem expect_const {T : List (ℝ × List Nat × List ℝ)} (h : (T.map (fun t => t.1)).sum = 1) (c : ℝ) : expect T (fun _ => c) = c := by
  unfold expect
  have : ∀ T : List (ℝ × List Nat × List ℝ), (T.map (fun t => t.1 * c)).sum = (T.map (fun t => t.1)).sum * c := by
    intro T
    induction T with
    | nil => simp
    | cons t T ih =>
      simp only [List.map_cons, List.sum_cons, ih]
      ring
  rw [this, h, one_mul]

theorem expect_congr {T : List (ℝ × List Nat × List ℝ)} {φ ψ : List ℝ → ℝ} (h : ∀ t ∈ T, φ t.2.2 = ψ t.2.2) : expect T φ = expect T ψ := by
  unfold expect
  congr 1
  exact List.map_congr_left fun t ht => by rw [h t ht]

theorem abs_expect_le {T : List (ℝ × List Nat × List ℝ)} (hT : ∀ t ∈ T, 0 ≤ t.1) {φ ψ : List ℝ → ℝ} (h : ∀ t ∈ T, |φ t.2.2| ≤ ψ t.2.2) :
    |expect T φ| ≤ expect T ψ := by
  unfold expect
  induction T with
  | nil => simp
  | cons t T ih =>
    simp only [List.map_cons, List.sum_cons]
    refine (abs_add_le _ _).trans (add_le_add ?_ (ih (fun t ht => hT t (List.mem_cons_of_mem _ ht)) (fun t ht => h t (List.mem_cons_of_mem _ ht))))
    rw [abs_mul, abs_of_nonneg (hT t List.mem_cons_self)]
    exact mul_le_mul_of_nonneg_left (h t List.mem_cons_self) (hT t List.mem_cons_self)

theorem dotL_diff (g x p : List ℝ) {n : Nat} (hx : x.length = n) (hp : p.length = n) :
    dotL g (diffL p x) = ∑ d ∈ Finset.range n, g.getD d 0 * (p.getD d 0 - x.getD d 0) := by
  unfold dotL diffL
  induction n generalizing g x p with
  | zero => simp [List.length_eq_zero_iff.1 hx]
  | succ n ih =>
    obtain ⟨a, x, rfl⟩ := List.exists_cons_of_length_eq_add_one hx
    obtain ⟨b, p, rfl⟩ := List.exists_cons_of_length_eq_add_one hp
    rw [Finset.sum_range_succ']
    cases g with
    | nil => simp
    | cons c g =>
      simp only [List.zipWith_cons_cons, List.sum_cons]
      rw [ih g x p (by simpa using hx) (by simpa using hp)]
      simp [add_comm]

theorem dotL_diff_sq (x p : List ℝ) {n : Nat} (hx : x.length = n) (hp : p.length = n) :
    dotL (diffL p x) (diffL p x) = ∑ d ∈ Finset.range n, (p.getD d 0 - x.getD d 0) ^ 2 := by
  unfold dotL diffL
  induction n generalizing x p with
  | zero => simp [List.length_eq_zero_iff.1 hx]
  | succ n ih =>
    obtain ⟨a, x, rfl⟩ := List.exists_cons_of_length_eq_add_one hx
    obtain ⟨b, p, rfl⟩ := List.exists_cons_of_length_eq_add_one hp
    rw [Finset.sum_range_succ']
    simp only [List.zipWith_cons_cons, List.sum_cons]
    rw [ih x p (by simpa using hx) (by simpa using hp)]
    simp [add_comm, sq]

theorem dotL_diff_abs (g x p : List ℝ) {n : Nat} (hx : x.length = n) (hp : p.length = n) :
    dotL g ((diffL p x).map (|·|)) = ∑ d ∈ Finset.range n, g.getD d 0 * |p.getD d 0 - x.getD d 0| := by
  unfold dotL diffL
  induction n generalizing g x p with
  | zero => simp [List.length_eq_zero_iff.1 hx]
  | succ n ih =>
    obtain ⟨a, x, rfl⟩ := List.exists_cons_of_length_eq_add_one hx
    obtain ⟨b, p, rfl⟩ := List.exists_cons_of_length_eq_add_one hp
    rw [Finset.sum_range_succ']
    cases g with
    | nil => simp
    | cons c g =>
      simp only [List.zipWith_cons_cons, List.map_cons, List.sum_cons]
      rw [ih g x p (by simpa using hx) (by simpa using hp)]
      simp [add_comm]

/-- The two nodes around a coordinate. -/
def loD (cell : List (Nat × ℝ × ℝ)) (d : Nat) : ℝ := (cell.getD d (0, 0, 0)).2.1
def hiD (cell : List (Nat × ℝ × ℝ)) (d : Nat) : ℝ := (cell.getD d (0, 0, 0)).2.2

theorem spread_eq {grids : List (List ℝ)} {cell : List (Nat × ℝ × ℝ)} {x : List ℝ} (h : Brackets grids cell x) :
    spread cell x = ∑ d ∈ Finset.range grids.length, (x.getD d 0 - loD cell d) * (hiD cell d - x.getD d 0) := by
  induction h with
  | nil => simp [spread]
  | @cons g gs c a b cell x xs h1 h2 h3 h4 _ ih =>
    rw [List.length_cons, Finset.sum_range_succ', spread, ih]
    simp [loD, hiD, add_comm]

theorem spreadL_eq {grids : List (List ℝ)} {cell : List (Nat × ℝ × ℝ)} {x : List ℝ} (h : Brackets grids cell x) (Ls : List ℝ) :
    spreadL cell Ls x = ∑ d ∈ Finset.range grids.length,
      Ls.getD d 0 * (2 * ((x.getD d 0 - loD cell d) * (hiD cell d - x.getD d 0)) / (hiD cell d - loD cell d)) := by
  induction h generalizing Ls with
  | nil => simp [spreadL]
  | @cons g gs c a b cell x xs h1 h2 h3 h4 _ ih =>
    cases Ls with
    | nil => simp [spreadL]
    | cons L Ls =>
      rw [List.length_cons, Finset.sum_range_succ', spreadL, ih Ls, add_comm]
      congr 1
      simp [loD, hiD]
      ring

theorem vertex_coord {grids : List (List ℝ)} (hg : ∀ g ∈ grids, g.Pairwise (· < ·)) {cell : List (Nat × ℝ × ℝ)} {x : List ℝ} (h : Brackets grids cell x)
    {d : Nat} (hd : d < grids.length) :
    loD cell d ≤ x.getD d 0 ∧ x.getD d 0 ≤ hiD cell d ∧ loD cell d < hiD cell d ∧
    ∀ idx p, VertexOf cell idx → IsNode grids idx p → p.getD d 0 = loD cell d ∨ p.getD d 0 = hiD cell d := by
  induction h generalizing d with
  | nil => simp at hd
  | @cons g gs c a b cell x xs h1 h2 h3 h4 _ ih =>
    cases d with
    | zero =>
      refine ⟨by simpa [loD] using h3, by simpa [hiD] using h4, ?_, ?_⟩
      · obtain ⟨i1, e1⟩ := List.getElem?_eq_some_iff.1 h1
        obtain ⟨i2, e2⟩ := List.getElem?_eq_some_iff.1 h2
        have := List.pairwise_iff_getElem.1 (hg g List.mem_cons_self) c (c + 1) i1 i2 (by omega)
        rw [e1, e2] at this
        simpa [loD, hiD] using this
      · intro idx p hv hp
        cases hp with
        | @cons _ _ i is y ys hi hys =>
          cases hv with
          | cons hc _ =>
            rcases hc with rfl | rfl
            · rw [h1] at hi
              left
              simpa [loD] using (Option.some.inj hi).symm
            · rw [h2] at hi
              right
              simpa [hiD] using (Option.some.inj hi).symm
    | succ d =>
      obtain ⟨k1, k2, k3, k4⟩ := ih (fun g' h' => hg g' (List.mem_cons_of_mem _ h')) (d := d) (by simpa using hd)
      refine ⟨by simpa [loD] using k1, by simpa [hiD] using k2, by simpa [loD, hiD] using k3, ?_⟩
      intro idx p hv hp
      cases hp with
      | @cons _ _ i is y ys hi hys =>
        cases hv with
        | cons _ hv' => simpa [loD, hiD] using k4 _ _ hv' hys

/-- Two cells around the same point differ only along the axes where the point is on a node. -/
theorem spread_unique {grids : List (List ℝ)} (hg : ∀ g ∈ grids, g.Pairwise (· < ·)) {cell cell' : List (Nat × ℝ × ℝ)} {x : List ℝ}
    (h : Brackets grids cell x) (h' : Brackets grids cell' x) : spread cell x = spread cell' x ∧ ∀ Ls, spreadL cell Ls x = spreadL cell' Ls x := by
  induction h generalizing cell' with
  | nil => cases h'; exact ⟨rfl, fun _ => rfl⟩
  | @cons g gs c a b cell x xs h1 h2 h3 h4 _ ih =>
    cases h' with
    | @cons _ _ c' a' b' cell' _ _ h1' h2' h3' h4' hr =>
      obtain ⟨e1, e2⟩ := ih (fun g' h' => hg g' (List.mem_cons_of_mem _ h')) hr
      have hgg := List.pairwise_iff_getElem.1 (hg g List.mem_cons_self)
      have le : ∀ (i j : Nat) (u v : ℝ), g[i]? = some u → g[j]? = some v → i ≤ j → u ≤ v := by
        intro i j u v hu hv hij
        obtain ⟨i1, rfl⟩ := List.getElem?_eq_some_iff.1 hu
        obtain ⟨i2, rfl⟩ := List.getElem?_eq_some_iff.1 hv
        rcases eq_or_lt_of_le hij with rfl | hlt
        · exact le_refl _
        · exact (hgg i j i1 i2 hlt).le
      have key : (a = a' ∧ b = b') ∨ ((x - a) * (b - x) = 0 ∧ (x - a') * (b' - x) = 0) := by
        rcases lt_trichotomy c c' with hc | rfl | hc
        · have := le (c + 1) c' b a' h2 h1' hc
          right
          exact ⟨by rw [show b - x = 0 by linarith, mul_zero], by rw [show x - a' = 0 by linarith, zero_mul]⟩
        · left
          rw [h1] at h1'
          rw [h2] at h2'
          exact ⟨Option.some.inj h1', Option.some.inj h2'⟩
        · have := le (c' + 1) c b' a h2' h1 hc
          right
          exact ⟨by rw [show x - a = 0 by linarith, zero_mul], by rw [show b' - x = 0 by linarith, mul_zero]⟩
      constructor
      · simp only [spread, e1]
        rcases key with ⟨rfl, rfl⟩ | ⟨k1, k2⟩
        · rfl
        · rw [k1, k2]
      · intro Ls
        cases Ls with
        | nil => rfl
        | cons L Ls =>
          simp only [spreadL, e2]
          rcases key with ⟨rfl, rfl⟩ | ⟨k1, k2⟩
          · rfl
          · rw [k1, k2]
            simp

/-! ## Accuracy -/

/-- C159: simplex interpolation of samples of a function whose second derivatives, in all directions, are at most `M`: the error at a point of a cell is at most `M / 2`
times the sum of the `(x - a) (b - x)`; it is at most `M / 8` times the square of the diagonal of the cell. -/
theorem C159_accuracy {grids : List (List ℝ)} {values : List ℝ} {F : List Nat → ℝ} (hg : Axes grids)
    (h2 : ∀ g ∈ grids, 2 ≤ g.length) (hF : Holds (grids.map List.length) values F) {t : NDInterp ℝ} (ht : NDInterp.new grids values = .ok t)
    {sort : List (ℝ × Nat) → List (ℝ × Nat)} (hsort : IsSort sort) {f : List ℝ → ℝ} {G : List ℝ → List ℝ} {M : ℝ} (hf : Curvature grids f G M)
    (hs : ∀ idx p, IsNode grids idx p → F idx = f p) {cell : List (Nat × ℝ × ℝ)} {x : List ℝ} (hx : Brackets grids cell x) :
    ∃ r, interpSimplex sort t x = .ok r ∧ |r - f x| ≤ M / 2 * spread cell x := by
  have hxb := Brackets.inBox hg.increasing hx
  obtain ⟨r, cell', he, hb, T, t1, t2, t3, t4⟩ := C23_convex_combination hg h2 hF ht hsort hxb
  refine ⟨r, he, ?_⟩
  have hxl := inBox_len hxb
  have hpl : ∀ t ∈ T, t.2.2.length = grids.length := fun t ht => isNode_len (t1 t ht).2.2
  rw [(spread_unique hg.increasing hx hb).1, spread_eq hb]
  have er : r = expect T f := by
    rw [← t3]
    unfold expect
    congr 1
    exact List.map_congr_left fun t ht => by rw [hs _ _ (t1 t ht).2.2]
  have ex : ∀ d, d < grids.length → expect T (fun p => p.getD d 0) = x.getD d 0 := fun d hd => by
    unfold expect
    rw [t4 d (by omega)]
    simp [List.getD, List.getElem?_eq_getElem (show d < x.length by omega)]
  -- the linear part vanishes
  have e1 : expect T (fun p => f p - f x - dotL (G x) (diffL p x)) = r - f x := by
    have e2 : expect T (fun p => f p - f x - dotL (G x) (diffL p x)) =
        expect T (fun p => f p + (-f x + ∑ d ∈ Finset.range grids.length, (G x).getD d 0 * (-1 * (p.getD d 0 + -x.getD d 0)))) := by
      refine expect_congr fun t ht => ?_
      rw [dotL_diff _ _ _ hxl (hpl t ht), sub_eq_add_neg, sub_eq_add_neg, add_assoc, ← Finset.sum_neg_distrib]
      congr 2
      exact Finset.sum_congr rfl fun d _ => by ring
    rw [e2, expect_add, expect_add, expect_sum, expect_const t2, ← er]
    have : ∀ d ∈ Finset.range grids.length, expect T (fun p => (G x).getD d 0 * (-1 * (p.getD d 0 + -x.getD d 0))) = 0 := fun d hd => by
      rw [expect_mul, expect_mul, expect_add, expect_const t2, ex d (Finset.mem_range.1 hd)]
      ring
    rw [Finset.sum_eq_zero this]
    ring
  rw [← e1]
  refine (abs_expect_le (fun t ht => (t1 t ht).1) (ψ := fun p => M / 2 * ∑ d ∈ Finset.range grids.length, (p.getD d 0 - x.getD d 0) ^ 2)
    fun t ht => ?_).trans (le_of_eq ?_)
  · rw [← dotL_diff_sq _ _ hxl (hpl t ht)]
    exact tangent_error hf hxb (IsNode.inBox hg.increasing (t1 t ht).2.2)
  · rw [expect_mul, expect_sum]
    congr 1
    refine Finset.sum_congr rfl fun d hd => ?_
    have hd' := Finset.mem_range.1 hd
    obtain ⟨-, -, -, k4⟩ := vertex_coord hg.increasing hb hd'
    have e3 : expect T (fun p => (p.getD d 0 - x.getD d 0) ^ 2) = expect T (fun p => (loD cell' d + hiD cell' d - 2 * x.getD d 0) * p.getD d 0
        + (x.getD d 0 ^ 2 - loD cell' d * hiD cell' d)) := by
      refine expect_congr fun t ht => ?_
      rcases k4 _ _ (t1 t ht).2.1 (t1 t ht).2.2 with e | e <;> rw [e] <;> ring
    rw [e3, expect_add, expect_mul, expect_const t2, ex d hd']
    ring

/-- C159: simplex interpolation of samples of a function that varies by at most `L` per unit along each axis: the error at a point of a cell is at most the sum of
the `2 L (x - a) (b - x) / (b - a)`; it is at most half the sum of the variations over the cell. -/
theorem C159_rate {grids : List (List ℝ)} {values : List ℝ} {F : List Nat → ℝ} (hg : Axes grids)
    (h2 : ∀ g ∈ grids, 2 ≤ g.length) (hF : Holds (grids.map List.length) values F) {t : NDInterp ℝ} (ht : NDInterp.new grids values = .ok t)
    {sort : List (ℝ × Nat) → List (ℝ × Nat)} (hsort : IsSort sort) {f : List ℝ → ℝ} {Ls : List ℝ} (hf : RateBounds grids f Ls)
    (hs : ∀ idx p, IsNode grids idx p → F idx = f p) {cell : List (Nat × ℝ × ℝ)} {x : List ℝ} (hx : Brackets grids cell x) :
    ∃ r, interpSimplex sort t x = .ok r ∧ |r - f x| ≤ spreadL cell Ls x := by
  have hxb := Brackets.inBox hg.increasing hx
  obtain ⟨r, cell', he, hb, T, t1, t2, t3, t4⟩ := C23_convex_combination hg h2 hF ht hsort hxb
  refine ⟨r, he, ?_⟩
  have hxl := inBox_len hxb
  have hpl : ∀ t ∈ T, t.2.2.length = grids.length := fun t ht => isNode_len (t1 t ht).2.2
  rw [(spread_unique hg.increasing hx hb).2, spreadL_eq hb]
  have er : r = expect T f := by
    rw [← t3]
    unfold expect
    congr 1
    exact List.map_congr_left fun t ht => by rw [hs _ _ (t1 t ht).2.2]
  have ex : ∀ d, d < grids.length → expect T (fun p => p.getD d 0) = x.getD d 0 := fun d hd => by
    unfold expect
    rw [t4 d (by omega)]
    simp [List.getD, List.getElem?_eq_getElem (show d < x.length by omega)]
  have e1 : expect T (fun p => f p + -f x) = r - f x := by
    rw [expect_add, expect_const t2, ← er]
    ring
  rw [← e1]
  refine (abs_expect_le (fun t ht => (t1 t ht).1) (ψ := fun p => ∑ d ∈ Finset.range grids.length, Ls.getD d 0 * |p.getD d 0 - x.getD d 0|)
    fun t ht => ?_).trans (le_of_eq ?_)
  · rw [← dotL_diff_abs _ _ _ hxl (hpl t ht), ← sub_eq_add_neg]
    exact hf _ _ hxb (IsNode.inBox hg.increasing (t1 t ht).2.2)
  · rw [expect_sum]
    refine Finset.sum_congr rfl fun d hd => ?_
    have hd' := Finset.mem_range.1 hd
    obtain ⟨k1, k2, k3, k4⟩ := vertex_coord hg.increasing hb hd'
    rw [expect_mul]
    congr 1
    have h0 : hiD cell' d - loD cell' d ≠ 0 := by linarith
    have e3 : expect T (fun p => |p.getD d 0 - x.getD d 0|) =
        expect T (fun p => ((loD cell' d + hiD cell' d - 2 * x.getD d 0) / (hiD cell' d - loD cell' d)) * p.getD d 0
        + (x.getD d 0 - loD cell' d - (loD cell' d + hiD cell' d - 2 * x.getD d 0) / (hiD cell' d - loD cell' d) * loD cell' d)) := by
      refine expect_congr fun t ht => ?_
      rcases k4 _ _ (t1 t ht).2.1 (t1 t ht).2.2 with e | e <;> rw [e]
      · rw [abs_of_nonpos (by linarith)]
        ring
      · rw [abs_of_nonneg (by linarith)]
        field_simp
        ring
    rw [e3, expect_add, expect_mul, expect_const t2, ex d hd']
    field_simp
    ring

/-- The sum of the `(x - a) (b - x)` is at most a quarter of the square of the diagonal of the cell. -/
theorem spread_le {grids : List (List ℝ)} {cell : List (Nat × ℝ × ℝ)} {x : List ℝ} (h : Brackets grids cell x) :
    0 ≤ spread cell x ∧ spread cell x ≤ (cell.map (fun c => (c.2.2 - c.2.1) ^ 2)).sum / 4 := by
  induction h with
  | nil => simp [spread]
  | @cons g gs c a b cell x xs h1 h2 h3 h4 _ ih =>
    simp only [spread, List.map_cons, List.sum_cons]
    constructor
    · have := mul_nonneg (sub_nonneg.2 h3) (sub_nonneg.2 h4)
      linarith [ih.1]
    · nlinarith [ih.2, sq_nonneg (a + b - 2 * x)]

/-- C159: the error is at most `M / 8` times the square of the diagonal of the cell. -/
theorem C159_diagonal {grids : List (List ℝ)} {values : List ℝ} {F : List Nat → ℝ} (hg : Axes grids)
    (h2 : ∀ g ∈ grids, 2 ≤ g.length) (hF : Holds (grids.map List.length) values F) {t : NDInterp ℝ} (ht : NDInterp.new grids values = .ok t)
    {sort : List (ℝ × Nat) → List (ℝ × Nat)} (hsort : IsSort sort) {f : List ℝ → ℝ} {G : List ℝ → List ℝ} {M : ℝ} (hM : 0 ≤ M)
    (hf : Curvature grids f G M) (hs : ∀ idx p, IsNode grids idx p → F idx = f p) {cell : List (Nat × ℝ × ℝ)} {x : List ℝ} (hx : Brackets grids cell x) :
    ∃ r, interpSimplex sort t x = .ok r ∧ |r - f x| ≤ M / 8 * (cell.map (fun c => (c.2.2 - c.2.1) ^ 2)).sum := by
  obtain ⟨r, h3, h4⟩ := C159_accuracy hg h2 hF ht hsort hf hs hx
  refine ⟨r, h3, h4.trans ?_⟩
  have := mul_le_mul_of_nonneg_left (spread_le hx).2 (show 0 ≤ M / 2 by linarith)
  linarith

/-! ## Non-vacuity -/

theorem productCurvature : Curvature [[0, 1], [0, 2]] (fun p => p.getD 0 0 * p.getD 1 0) (fun p => [p.getD 1 0, p.getD 0 0]) 1 where
  deriv := by
    intro x y hx hy t _
    obtain ⟨a, x, rfl⟩ := List.exists_cons_of_length_eq_add_one (inBox_len hx)
    obtain ⟨b, x, rfl⟩ := List.exists_cons_of_length_eq_add_one (Nat.succ.inj (inBox_len hx))
    obtain ⟨c, y, rfl⟩ := List.exists_cons_of_length_eq_add_one (inBox_len hy)
    obtain ⟨d, y, rfl⟩ := List.exists_cons_of_length_eq_add_one (Nat.succ.inj (inBox_len hy))
    have h1 : HasDerivAt (fun s : ℝ => a + s * (c - a)) (c - a) t := by
      simpa using ((hasDerivAt_id t).mul_const (c - a)).const_add a
    have h2 : HasDerivAt (fun s : ℝ => b + s * (d - b)) (d - b) t := by
      simpa using ((hasDerivAt_id t).mul_const (d - b)).const_add b
    have h3 := (h1.mul h2).hasDerivWithinAt (s := Set.Icc 0 1)
    refine h3.congr_deriv ?_
    simp [dotL, diffL, segL]
    ring
  bound := by
    intro x y hx hy
    obtain ⟨a, x, rfl⟩ := List.exists_cons_of_length_eq_add_one (inBox_len hx)
    obtain ⟨b, x, rfl⟩ := List.exists_cons_of_length_eq_add_one (Nat.succ.inj (inBox_len hx))
    obtain ⟨c, y, rfl⟩ := List.exists_cons_of_length_eq_add_one (inBox_len hy)
    obtain ⟨d, y, rfl⟩ := List.exists_cons_of_length_eq_add_one (Nat.succ.inj (inBox_len hy))
    have ex : x = [] := List.length_eq_zero_iff.1 (Nat.succ.inj (Nat.succ.inj (inBox_len hx)))
    have ey : y = [] := List.length_eq_zero_iff.1 (Nat.succ.inj (Nat.succ.inj (inBox_len hy)))
    subst ex ey
    simp only [dotL, diffL, List.getD_cons_zero, List.getD_cons_succ, List.zipWith_cons_cons, List.zipWith_nil_left, List.sum_cons, List.sum_nil]
    rw [abs_le]
    constructor <;> nlinarith [sq_nonneg (c - a + (d - b)), sq_nonneg (c - a - (d - b))]

/-- C159 is about something: the product of two coordinates, at a point where the fractions are equal. -/
example : ∃ sort : List (ℝ × Nat) → List (ℝ × Nat), IsSort sort ∧
    ∃ r, interpSimplex sort ⟨[[0, 1], [0, 2]], [0, 0, 0, 2]⟩ [1 / 2, 1] = .ok r ∧ |r - 1 / 2| ≤ 5 / 8 := by
  have hsort : IsSort (fun l : List (ℝ × Nat) => l.insertionSort (fun a b => a.1 ≤ b.1)) := fun l => by
    haveI : Std.Total (fun a b : ℝ × Nat => a.1 ≤ b.1) := ⟨fun a b => le_total a.1 b.1⟩
    haveI : IsTrans (ℝ × Nat) (fun a b => a.1 ≤ b.1) := ⟨fun a b c h1 h2 => le_trans h1 h2⟩
    exact ⟨List.perm_insertionSort _ l, List.pairwise_insertionSort _ l⟩
  have hg : Axes ([[0, 1], [0, 2]] : List (List ℝ)) := ⟨by simp, by simp, by simp⟩
  have hH : Holds (([[0, 1], [0, 2]] : List (List ℝ)).map List.length) ([0, 0, 0, 2] : List ℝ)
      (fun idx => ([0, 0, 0, 2] : List ℝ).getD (pos [2, 2] idx) 0) := by
    refine ⟨rfl, ?_⟩
    intro idx h
    cases h with
    | @cons i _ is _ hi h =>
      cases h with
      | @cons j _ js _ hj h =>
        cases h
        match i, hi with
        | 0, _ => match j, hj with
          | 0, _ => rfl
          | 1, _ => rfl
        | 1, _ => match j, hj with
          | 0, _ => rfl
          | 1, _ => rfl
  obtain ⟨r, h1, h2⟩ := C159_accuracy hg (by simp) (t := ⟨[[0, 1], [0, 2]], [0, 0, 0, 2]⟩) hH (by simp [NDInterp.new]) hsort productCurvature
    (by
      intro idx p hp
      cases hp with
      | @cons _ _ i is u us hi h =>
        cases h with
        | @cons _ _ j js v vs hj h =>
          cases h
          match i, hi with
          | 0, hi => match j, hj with
            | 0, hj => simp at hi hj; subst hi hj; simp [pos]
            | 1, hj => simp at hi hj; subst hi hj; simp [pos]
          | 1, hi => match j, hj with
            | 0, hj => simp at hi hj; subst hi hj; simp [pos]
            | 1, hj => simp at hi hj; subst hi hj; simp [pos])
    (cell := [(0, 0, 1), (0, 0, 2)]) (x := [1 / 2, 1])
    (.cons rfl rfl (by norm_num) (by norm_num) (.cons rfl rfl (by norm_num) (by norm_num) .nil))
  refine ⟨_, hsort, r, h1, ?_⟩
  norm_num [spread] at h2 ⊢
  exact h2

end MU
