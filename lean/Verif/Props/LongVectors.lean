import Verif.Model.LongVectors
import Verif.Props.Vectors
import Verif.Props.Interp1d
import Verif.Props.Interp2d
import Verif.Props.Convolution

set_option linter.unusedSectionVars false

/-!
# C221: vectors of any length

The counters of some loops are narrower than the length of a vector. Below `2^32` elements (`2^31` for the evaluation of an interpolator on a vector) each function does what the
model with natural numbers says (the theorems `_partial`); from there on it does not (the theorems `_refuted` and `_long`).
-/

namespace MU
open Spec

/-! ## Loops -/

theorem forU32_short {σ : Type} {n : Nat} (hn : n < 2 ^ 32) (f : Nat → σ → Res σ) (k : Nat) : ∀ (turns i : Nat) (s : σ), i + k = n → k < turns →
    forU32 n f turns i s = some (forN k i f s) := by
  induction k with
  | zero =>
    intro turns i s hi ht
    obtain ⟨t, rfl⟩ : ∃ t, turns = t + 1 := ⟨turns - 1, by omega⟩
    rw [forU32, if_neg (by omega), forN]
  | succ k ih =>
    intro turns i s hi ht
    obtain ⟨t, rfl⟩ : ∃ t, turns = t + 1 := ⟨turns - 1, by omega⟩
    rw [forU32, if_pos (by omega), forN]
    cases h : f i s with
    | ok s' =>
      have := ih t (i + 1) s' (by omega) (by omega)
      simpa only [Nat.mod_eq_of_lt (show i + 1 < 2 ^ 32 by omega), Res.ok_bind] using this
    | _ => rfl

theorem forU32_long {σ : Type} {n : Nat} (hn : 2 ^ 32 ≤ n) (f : Nat → σ → Res σ) (h : ∀ i s, i < 2 ^ 32 → ∃ s', f i s = .ok s') : ∀ (turns i : Nat) (s : σ), i < 2 ^ 32 →
    forU32 n f turns i s = none := by
  intro turns
  induction turns with
  | zero => intro i s _; rfl
  | succ t ih =>
    intro i s hi
    obtain ⟨s', e⟩ := h i s hi
    rw [forU32, if_pos (by omega), e]
    exact ih _ s' (Nat.mod_lt _ (by norm_num))

theorem andThen_some {α β : Type} (x : Res α) (f : α → Res β) : (andThen (some x) fun a => some (f a)) = some (x >>= f) := by
  cases x <;> rfl

theorem andThen_ok {α β : Type} (a : α) (f : α → Option (Res β)) : andThen (some (.ok a)) f = f a := rfl

theorem Act.loopU32_short {σ : Type} {n : Nat} (hn : n < 2 ^ 32) {f g : Nat → Act σ Unit} (hfg : ∀ i, 1 ≤ i → i < 2 ^ 32 → f i = g i) (k : Nat) :
    ∀ (turns i : Nat) (s : σ), 1 ≤ i → i + k = n → k < turns → Act.loopU32 n f turns i s = some ((Act.loopN k i g).run s) := by
  induction k with
  | zero =>
    intro turns i s h1 hi ht
    obtain ⟨t, rfl⟩ : ∃ t, turns = t + 1 := ⟨turns - 1, by omega⟩
    rw [Act.loopU32, if_neg (by omega), Act.loopN]
    rfl
  | succ k ih =>
    intro turns i s h1 hi ht
    obtain ⟨t, rfl⟩ : ∃ t, turns = t + 1 := ⟨turns - 1, by omega⟩
    rw [Act.loopU32, if_pos (by omega), Act.loopN, Act.run_bind, hfg i h1 (by omega)]
    rcases h : (g i).run s with ⟨r, s'⟩
    cases r with
    | ok u =>
      have := ih t (i + 1) s' (by omega) (by omega) (by omega)
      simpa only [Nat.mod_eq_of_lt (show i + 1 < 2 ^ 32 by omega)] using this
    | _ => rfl

theorem Act.loopU32_long {σ : Type} {n : Nat} (hn : 2 ^ 32 ≤ n) (f : Nat → Act σ Unit) (P : σ → Prop) (h : ∀ i s, i < 2 ^ 32 → P s → ∃ s', (f i).run s = (.ok (), s') ∧ P s') :
    ∀ (turns i : Nat) (s : σ), i < 2 ^ 32 → P s → Act.loopU32 n f turns i s = none := by
  intro turns
  induction turns with
  | zero => intro i s _ _; rfl
  | succ t ih =>
    intro i s hi hP
    obtain ⟨s', e, hP'⟩ := h i s hi hP
    rw [Act.loopU32, if_pos (by omega), e]
    exact ih _ s' (Nat.mod_lt _ (by norm_num)) hP'

/-! ## Minus and Door -/

section
variable {K : Type} [Field K] [LinearOrder K] [IsStrictOrderedRing K]

/-- C221, `Minus`, what holds: below `2^32` elements it is that of C55. -/
theorem C221_minus_partial (B : Build) (v w : List K) (hv : v.length < 2 ^ 32) : vMinus32 B v w = vMinus B v w := by
  unfold vMinus32 vMinus zipLoop
  rw [Nat.mod_eq_of_lt hv]
  rfl

/-- C221, `Minus`, on `2^32` elements or more: two vectors of the same length are refused when assertions are on; when they are off, only the first elements, as many as the length
modulo `2^32`, are returned. -/
theorem C221_minus_long (v w : List K) (h : w.length = v.length) (hv : 2 ^ 32 ≤ v.length) :
    vMinus32 ⟨true⟩ v w = .aborts ∧ vMinus32 ⟨false⟩ v w = .ok ((List.zipWith (· - ·) v w).take (v.length % 2 ^ 32)) := by
  have hlt : v.length % 2 ^ 32 < 2 ^ 32 := Nat.mod_lt _ (by norm_num)
  refine ⟨?_, ?_⟩
  · unfold vMinus32
    simp only [cassert_false _ (by omega : ¬ w.length = v.length % 2 ^ 32), Res.aborts_bind]
  · unfold vMinus32
    simp only [cassert, Bool.false_eq_true, false_and, if_false, Res.ok_bind]
    rw [fill_all (0 : K) (fun i => v.getD i 0 - w.getD i 0)]
    · congr 1
      apply List.ext_getElem
      · simp [h]; omega
      · intro i h1 h2
        have : i < v.length := by simp at h2; omega
        simp [List.getD, List.getElem?_eq_getElem, this, h]
    · intro i hi out _
      have hi1 : i < v.length := by omega
      have hi2 : i < w.length := by omega
      rw [vIdx_lt hi1, Res.ok_bind, vIdx_lt hi2, Res.ok_bind]
      simp [List.getD, List.getElem?_eq_getElem, hi1, hi2]

/-- C221, `Door`, what holds: below `2^32` elements it is that of C52. -/
theorem C221_door_partial (B : Build) (x : List K) (a b h : K) (hx : x.length < 2 ^ 32) : door32 B x a b h = door B x a b h := by
  rw [door32, door, C52_heaviside, C52_heaviside, Res.ok_bind, Res.ok_bind, Res.ok_bind, Res.ok_bind, C221_minus_partial B _ _ (by simpa using hx)]

/-- C221, `Door`, on `2^32` elements or more: refused when assertions are on, cut short when they are off. -/
theorem C221_door_long (x : List K) (a b h : K) (hx : 2 ^ 32 ≤ x.length) :
    door32 ⟨true⟩ x a b h = .aborts ∧ ∃ y, door32 ⟨false⟩ x a b h = .ok y ∧ y.length < x.length := by
  have hlt : x.length % 2 ^ 32 < 2 ^ 32 := Nat.mod_lt _ (by norm_num)
  have := C221_minus_long (x.map (Spec.step a)) (x.map (Spec.step b)) (by simp) (by simpa using hx)
  refine ⟨?_, ?_⟩
  · rw [door32, C52_heaviside, C52_heaviside, Res.ok_bind, Res.ok_bind, this.1, Res.aborts_bind]
  · rw [door32, C52_heaviside, C52_heaviside, Res.ok_bind, Res.ok_bind, this.2, Res.ok_bind]
    exact ⟨_, rfl, by simp [vScale]; omega⟩

/-- C221 fails for `Minus`: there are two vectors of the same length which it refuses when assertions are on, and for which it returns no element at all when they are off. -/
theorem C221_refuted : ∃ v w : List K, v.length = w.length ∧ v ≠ [] ∧ vMinus32 ⟨true⟩ v w = .aborts ∧ vMinus32 ⟨false⟩ v w = .ok [] := by
  obtain ⟨v, hv⟩ : ∃ v : List K, v.length = 2 ^ 32 := ⟨List.replicate _ 0, List.length_replicate⟩
  have := C221_minus_long v v rfl (by omega)
  refine ⟨v, v, rfl, ?_, this.1, ?_⟩
  · rintro rfl
    rw [List.length_nil] at hv
    omega
  · rw [this.2, hv, Nat.mod_self, List.take_zero]

/-! ## IsClose -/

theorem isCloseLoop32_step (a b : List K) (rtol atol : K) (hlen : a.length = b.length) (turns i : Nat) (hi : i < a.length) :
    isCloseLoop32 a b rtol atol (turns + 1) i =
      if isClose a[i] (b[i]'(by omega)) rtol atol = true then isCloseLoop32 a b rtol atol turns ((i + 1) % 2 ^ 32) else some (.ok false) := by
  rw [isCloseLoop32, if_pos hi, vIdx_lt hi, Res.ok_bind, vIdx_lt (show i < b.length by omega), Res.ok_bind]
  cases h : isClose a[i] (b[i]'(by omega)) rtol atol <;> rfl

/-- C221, `IsClose` on vectors, what holds: below `2^32` elements it answers as in C54, after at most one turn more than there are elements. -/
theorem C221_isClose_partial (B : Build) (a b : List K) (rtol atol : K) (hlen : a.length = b.length) (ha : a.length < 2 ^ 32) (turns : Nat) (ht : a.length < turns) :
    isCloseVec32 B a b rtol atol turns = some (isCloseVec B a b rtol atol) := by
  have main : ∀ (k turns i : Nat), i + k = a.length → k < turns → isCloseLoop32 a b rtol atol turns i = some (isCloseLoop a b rtol atol k i) := by
    intro k
    induction k with
    | zero =>
      intro turns i hi ht
      obtain ⟨t, rfl⟩ : ∃ t, turns = t + 1 := ⟨turns - 1, by omega⟩
      rw [isCloseLoop32, if_neg (by omega), isCloseLoop]
    | succ k ih =>
      intro turns i hi ht
      obtain ⟨t, rfl⟩ : ∃ t, turns = t + 1 := ⟨turns - 1, by omega⟩
      rw [isCloseLoop32_step a b rtol atol hlen t i (by omega), isCloseLoop, vIdx_lt (show i < a.length by omega), Res.ok_bind,
        vIdx_lt (show i < b.length by omega), Res.ok_bind, Nat.mod_eq_of_lt (by omega), ih t (i + 1) (by omega) (by omega)]
      cases isClose a[i] (b[i]'(by omega)) rtol atol <;> rfl
  rw [isCloseVec32, isCloseVec, cassert_true B _ hlen, Res.ok_bind, andThen_ok]
  exact main a.length turns 0 (by omega) ht

/-- C221, `IsClose` on two vectors of the same length, `2^32` elements or more: it never answers when the first `2^32` elements are close to each other, whatever the other ones are.
Otherwise it answers that the vectors are not close. -/
theorem C221_isClose_long (B : Build) (a b : List K) (rtol atol : K) (hlen : a.length = b.length) (ha : 2 ^ 32 ≤ a.length) :
    ((∀ i (h : i < 2 ^ 32), isClose (a[i]'(by omega)) (b[i]'(by omega)) rtol atol = true) → ∀ turns, isCloseVec32 B a b rtol atol turns = none) ∧
    ((∃ i, ∃ h : i < 2 ^ 32, isClose (a[i]'(by omega)) (b[i]'(by omega)) rtol atol = false) →
      ∀ turns, 2 ^ 32 ≤ turns → isCloseVec32 B a b rtol atol turns = some (.ok false)) := by
  have hc : ∀ turns, isCloseVec32 B a b rtol atol turns = isCloseLoop32 a b rtol atol turns 0 := fun turns => by
    rw [isCloseVec32, cassert_true B _ hlen, andThen_ok]
  refine ⟨fun h turns => ?_, fun ⟨m, hm, hf⟩ turns ht => ?_⟩
  · rw [hc]
    have : ∀ turns i, i < 2 ^ 32 → isCloseLoop32 a b rtol atol turns i = none := by
      intro turns
      induction turns with
      | zero => intro i _; rfl
      | succ t ih =>
        intro i hi
        rw [isCloseLoop32_step a b rtol atol hlen t i (by omega), if_pos (h i hi)]
        exact ih _ (Nat.mod_lt _ (by norm_num))
    exact this turns 0 (by norm_num)
  · rw [hc]
    have : ∀ k turns i, i + k = m → k < turns → isCloseLoop32 a b rtol atol turns i = some (.ok false) := by
      intro k
      induction k with
      | zero =>
        intro turns i hi ht
        obtain ⟨t, rfl⟩ : ∃ t, turns = t + 1 := ⟨turns - 1, by omega⟩
        obtain rfl : i = m := by omega
        rw [isCloseLoop32_step a b rtol atol hlen t i (by omega), hf]
        rfl
      | succ k ih =>
        intro turns i hi ht
        obtain ⟨t, rfl⟩ : ∃ t, turns = t + 1 := ⟨turns - 1, by omega⟩
        rw [isCloseLoop32_step a b rtol atol hlen t i (by omega), Nat.mod_eq_of_lt (by omega), ih t (i + 1) (by omega) (by omega), ite_self]
    exact this m turns 0 (by omega) (by omega)

/-- C221 fails for `IsClose`: there are two vectors of the same length, of which one element differs, for which it never answers. -/
theorem C221_isClose_refuted : ∃ a b : List K, a.length = b.length ∧ a ≠ b ∧ ∀ (B : Build) (turns : Nat), isCloseVec32 B a b 0 0 turns = none := by
  obtain ⟨v, hv⟩ : ∃ v : List K, v.length = 2 ^ 32 := ⟨List.replicate _ 0, List.length_replicate⟩
  refine ⟨v ++ [0], v ++ [1], by simp, by simp, fun B turns => ?_⟩
  refine (C221_isClose_long B (v ++ [0]) (v ++ [1]) 0 0 (by simp) (by simp [hv])).1 (fun i hi => ?_) turns
  rw [List.getElem_append_left (by omega), List.getElem_append_left (by omega)]
  simp [isClose]

/-! ## NaiveConvolution -/

theorem forU32_copy_short (signal : List K) (hs : signal.length < 2 ^ 32) (turns : Nat) (ht : signal.length < turns) :
    forU32 signal.length (fun i sv => do let s ← vIdx signal i; return sv ++ [s]) turns 0 ([] : List K) = some (.ok signal) := by
  rw [forU32_short hs _ signal.length turns 0 [] (by omega) ht]
  have := forRange_ok (Nat.zero_le signal.length) (f := fun i (sv : List K) => do let s ← vIdx signal i; return sv ++ [s]) (fun i => signal.take i) (fun i _ hi => by
    rw [vIdx_lt hi, Res.ok_bind, List.take_add_one, List.getElem?_eq_getElem hi]
    rfl)
  rw [List.take_zero, List.take_length] at this
  exact congrArg some this

/-- C221, `NaiveConvolution`, what holds: with a signal of fewer than `2^32` elements it is that of C66. -/
theorem C221_convolution_partial (B : Build) (kernel signal : List K) (dt : K) (reverse : Bool) (hs : signal.length < 2 ^ 32) (turns : Nat) (ht : signal.length < turns) :
    naiveConvolution32 B kernel signal dt reverse turns = some (naiveConvolution B kernel signal dt reverse) := by
  rw [naiveConvolution32, forU32_copy_short signal hs turns ht]
  exact (andThen_some _ _).trans (congrArg some (bind_assoc _ _ _))

/-- C221 fails for `NaiveConvolution`: with a signal of `2^32` elements or more it never returns, however short the kernel is. -/
theorem C221_convolution_refuted (B : Build) (kernel signal : List K) (dt : K) (reverse : Bool) (hk : kernel.length ≤ signal.length) (hl : kernel.length < 2 ^ 64)
    (hs : 2 ^ 32 ≤ signal.length) (turns : Nat) : naiveConvolution32 B kernel signal dt reverse turns = none := by
  obtain ⟨w, hw⟩ : ∃ w, convolutionIntegrand kernel signal reverse = .ok w := ⟨_, convolutionIntegrand_ok hk hl reverse⟩
  rw [naiveConvolution32, cassert_true B _ hk, Res.ok_bind, hw, andThen_ok,
    forU32_long hs _ (fun i s hi => ⟨s ++ [signal[i]'(by omega)], by rw [vIdx_lt (by omega), Res.ok_bind]; rfl⟩) turns 0 [] (by norm_num)]
  rfl

end

/-! ## Initialisation and evaluation of an interpolator -/

section
variable {K Y : Type} [Field K] [LinearOrder K] [IsStrictOrderedRing K] [AddCommGroup Y] [Module K Y]

theorem initializeStep32_eq {i : Nat} (h1 : 1 ≤ i) (hi : i < 2 ^ 32) : (Interp1d.initializeStep32 i : Act (Interp1d K Y) Unit) = Interp1d.initializeStep i := by
  unfold Interp1d.initializeStep32 Interp1d.initializeStep
  rw [usub_of_le h1 hi]

theorem initializeBase_ndata (B : Build) (xs : List K) (ys : List Y) (s : Interp1d K Y) :
    ((Interp1d.initializeBase B (some xs) (some ys)).run s).1 = .ok () → ((Interp1d.initializeBase B (some xs) (some ys)).run s).2.ndata = xs.length ∧ 0 < xs.length := by
  unfold Interp1d.initializeBase
  rw [deref_some, Act.run_lift_ok_bind, deref_some, Act.run_lift_ok_bind]
  have ca : ∀ (p : Prop) [Decidable p], cassert B p = .ok () ∨ cassert B p = .aborts := fun p _ => by
    unfold cassert
    split
    · exact Or.inr rfl
    · exact Or.inl rfl
  rcases ca (xs.length = ys.length) with h1 | h1
  swap
  · rw [h1, Act.run_lift_aborts_bind]
    exact fun h => nomatch h
  rcases ca (xs.Pairwise (· ≤ ·)) with h2 | h2
  swap
  · rw [h1, h2, Act.run_lift_ok_bind, Act.run_lift_aborts_bind]
    exact fun h => nomatch h
  rw [h1, h2, Act.run_lift_ok_bind, Act.run_lift_ok_bind, Act.run_update_bind]
  rcases Nat.eq_zero_or_pos xs.length with h3 | h3
  · have : vAt xs 0 = .throws .outOfRange := by
      rw [List.length_eq_zero_iff] at h3
      subst h3
      rfl
    rw [this, Act.run_lift_throws_bind]
    exact fun h => nomatch h
  · rw [vAt_lt h3, Act.run_lift_ok_bind, Act.run_update_bind, vAt_lt (show xs.length - 1 < xs.length by omega), Act.run_lift_ok_bind, Act.run_update_bind]
    exact fun _ => ⟨rfl, h3⟩

/-- C221, `Initialize` of a 1D interpolator, what holds: below `2^32` points it is that of C01 to C05, whether it succeeds or fails. -/
theorem C221_init_partial (B : Build) (xs : List K) (ys : List Y) (hx : xs.length < 2 ^ 32) (s : Interp1d K Y) (turns : Nat) (ht : xs.length < turns) :
    Interp1d.init32 B (some xs) (some ys) turns s = some ((Interp1d.init B (some xs) (some ys)).run s) := by
  rw [Interp1d.init32, Interp1d.init, Act.run_bind]
  have hnd := initializeBase_ndata B xs ys s
  rcases h : (Interp1d.initializeBase B (some xs) (some ys)).run s with ⟨r, s'⟩
  rw [h] at hnd
  cases r with
  | ok u =>
    have h0 : s'.ndata = xs.length ∧ 0 < xs.length := hnd rfl
    have := Act.loopU32_short (n := s'.ndata) (f := Interp1d.initializeStep32) (g := Interp1d.initializeStep) (by omega) (fun i h1 h2 => initializeStep32_eq (K := K) (Y := Y) h1 h2)
      (s'.ndata - 1) turns 1 s' (le_refl _) (by omega) (by omega)
    simpa only [Act.run_get_bind, Act.loop] using this
  | _ => rfl

/-- C221 fails for `Initialize` of a 1D interpolator: with `2^32` points or more, in increasing order, it never returns. -/
theorem C221_init_refuted (B : Build) (xs : List K) (ys : List Y) (hx : xs.Pairwise (· < ·)) (hl : xs.length = ys.length) (hn : 2 ^ 32 ≤ xs.length) (s : Interp1d K Y) (turns : Nat) :
    Interp1d.init32 B (some xs) (some ys) turns s = none := by
  rw [Interp1d.init32, Interp1d.run_initializeBase B (by omega) hl (pairwise_lt_le hx) s]
  refine Act.loopU32_long hn _ (fun s => s.xcoord = some xs ∧ s.yval = some ys) (fun i s hi hs => ?_) turns 1 _ (by norm_num) ⟨rfl, rfl⟩
  have hu : usub 32 i 1 < 2 ^ 32 := Nat.mod_lt _ (by norm_num)
  have hne : usub 32 i 1 ≠ i := by
    unfold usub
    omega
  have hd : xs[i]'(by omega) - xs[usub 32 i 1]'(by omega) ≠ 0 := by
    rw [sub_ne_zero]
    intro e
    have hnd : xs.Nodup := hx.imp (fun h => ne_of_lt h)
    exact hne ((List.Nodup.getElem_inj_iff hnd).1 e.symm)
  refine (fun (h : ∃ s', (Interp1d.initializeStep32 i).run s = (.ok (), s') ∧ s'.xcoord = s.xcoord ∧ s'.yval = s.yval) =>
    h.elim fun s' h => ⟨s', h.1, by rw [h.2.1, hs.1], by rw [h.2.2, hs.2]⟩) ?_
  refine ⟨{ s with
    a := s.a ++ [(xs[i]'(by omega) - xs[usub 32 i 1]'(by omega))⁻¹ • (ys[i]'(by omega) - ys[usub 32 i 1]'(by omega))]
    b := s.b ++ [(xs[i]'(by omega) - xs[usub 32 i 1]'(by omega))⁻¹ • (xs[i]'(by omega) • ys[usub 32 i 1]'(by omega) - xs[usub 32 i 1]'(by omega) • ys[i]'(by omega))] }, ?_, rfl, rfl⟩
  · unfold Interp1d.initializeStep32
    simp only [Act.run_bind, Act.run_get, Act.run_lift, hs.1, hs.2, deref_some, vAt_lt (show i < xs.length by omega), vAt_lt (show usub 32 i 1 < xs.length by omega),
      vAt_lt (show i < ys.length by omega), vAt_lt (show usub 32 i 1 < ys.length by omega), sdiv_ok hd, Act.run_update]

/-- C221, evaluation on a vector, what holds: below `2^31` abscissae it is that of C06. -/
theorem C221_eval_partial (kind : Interp1dKind) (s : Interp1d K Y) (xv : List K) (hx : xv.length < 2 ^ 31) : Interp1d.evalVec32 kind s xv = Interp1d.evalVec kind s xv := by
  rw [Interp1d.evalVec32, forI32, if_pos hx, Interp1d.evalVec]

/-- C221 fails for the evaluation on a vector: with `2^31` abscissae or more, all in range, its counter overflows, which is undefined behaviour. -/
theorem C221_eval_refuted (kind : Interp1dKind) (s : Interp1d K Y) (xv : List K) (hx : 2 ^ 31 ≤ xv.length) (hok : ∀ x ∈ xv, ∃ y, Interp1d.eval kind s x = .ok y) :
    Interp1d.evalVec32 kind s xv = .ub := by
  have main : ∀ N, N ≤ xv.length → ∃ r, forRange 0 N (fun i out => do
      let xi ← vIdx xv i
      let y ← Interp1d.eval kind s xi
      return out ++ [y]) ([] : List Y) = .ok r := fun N hN => by
    choose g hg using hok
    have := forRange_ok (Nat.zero_le N) (f := fun i (out : List Y) => do
      let xi ← vIdx xv i
      let y ← Interp1d.eval kind s xi
      return out ++ [y]) (fun i => ((List.range i).map fun j => if h : j < xv.length then g xv[j] (List.getElem_mem h) else 0)) (fun i _ hi => by
        rw [vIdx_lt (show i < xv.length by omega), Res.ok_bind, hg _ (List.getElem_mem _), Res.ok_bind, List.range_succ, List.map_append, List.map_singleton, dif_pos (by omega)]
        rfl)
    exact ⟨_, this⟩
  obtain ⟨r, hr⟩ := main (2 ^ 31) hx
  rw [Interp1d.evalVec32, forI32, if_neg (by omega), hr, Res.ok_bind]

end

/-! ## Initialisation of an interpolator in two variables -/

theorem Act.loopU32_ends {σ : Type} {n : Nat} (hn : n < 2 ^ 32) (f : Nat → Act σ Unit) (P : σ → Prop) (h : ∀ i s, 1 ≤ i → i < n → P s → ∃ s', (f i).run s = (.ok (), s') ∧ P s') :
    ∀ (turns i : Nat) (s : σ), 1 ≤ i → P s → Act.loopU32 n f turns i s = none ∨ ∃ s', Act.loopU32 n f turns i s = some (.ok (), s') ∧ P s' := by
  intro turns
  induction turns with
  | zero => intro i s _ _; exact Or.inl rfl
  | succ t ih =>
    intro i s hi hP
    by_cases hin : i < n
    · obtain ⟨s', e, hP'⟩ := h i s hi hin hP
      rw [Act.loopU32, if_pos hin, e]
      have := ih (i + 1) s' (by omega) hP'
      simpa only [Nat.mod_eq_of_lt (show i + 1 < 2 ^ 32 by omega)] using this
    · rw [Act.loopU32, if_neg hin]
      exact Or.inr ⟨s, rfl, hP⟩

theorem loopU32N_long {σ : Type} {n : Nat} (hn : 2 ^ 32 ≤ n) (f : Nat → σ → Option (Res Unit × σ)) (P : σ → Prop)
    (h : ∀ i s, i < 2 ^ 32 → P s → f i s = none ∨ ∃ s', f i s = some (.ok (), s') ∧ P s') : ∀ (turns i : Nat) (s : σ), i < 2 ^ 32 → P s → loopU32N n f turns i s = none := by
  intro turns
  induction turns with
  | zero => intro i s _ _; rfl
  | succ t ih =>
    intro i s hi hP
    rw [loopU32N, if_pos (by omega)]
    rcases h i s hi hP with e | ⟨s', e, hP'⟩
    · rw [e]
    · rw [e]
      exact ih _ s' (Nat.mod_lt _ (by norm_num)) hP'

theorem loopU32N_short {σ : Type} {n : Nat} (hn : n < 2 ^ 32) (f : Nat → σ → Option (Res Unit × σ)) (S : Nat → σ) (h : ∀ i, 1 ≤ i → i < n → f i (S i) = some (.ok (), S (i + 1))) (k : Nat) :
    ∀ (turns i : Nat), 1 ≤ i → i + k = n → k < turns → loopU32N n f turns i (S i) = some (.ok (), S n) := by
  induction k with
  | zero =>
    intro turns i h1 hi ht
    obtain ⟨t, rfl⟩ : ∃ t, turns = t + 1 := ⟨turns - 1, by omega⟩
    obtain rfl : i = n := by omega
    rw [loopU32N, if_neg (by omega)]
  | succ k ih =>
    intro turns i h1 hi ht
    obtain ⟨t, rfl⟩ : ∃ t, turns = t + 1 := ⟨turns - 1, by omega⟩
    rw [loopU32N, if_pos (by omega), h i h1 (by omega)]
    have := ih t (i + 1) (by omega) (by omega) (by omega)
    simpa only [Nat.mod_eq_of_lt (show i + 1 < 2 ^ 32 by omega)] using this

section
variable {K : Type} [Field K] [LinearOrder K] [IsStrictOrderedRing K]

/-- What the loops of `Initialize` leave alone. -/
def Interp2d.Holds (xs ys : List K) (s : Interp2d K) : Prop := s.xcoord = some xs ∧ s.ycoord = some ys ∧ s.ny = ys.length

theorem usub_one_ne {i : Nat} (hi : i < 2 ^ 32) : usub 32 i 1 < 2 ^ 32 ∧ usub 32 i 1 ≠ i := by
  unfold usub
  omega

theorem difference_ne {xs : List K} (hx : xs.Pairwise (· < ·)) {i j : Nat} (hi : i < xs.length) (hj : j < xs.length) (h : j ≠ i) : xs[i] - xs[j] ≠ 0 := by
  rw [sub_ne_zero]
  intro e
  have hnd : xs.Nodup := hx.imp (fun h => ne_of_lt h)
  exact h ((List.Nodup.getElem_inj_iff hnd).1 e.symm)

theorem usub_one_lt {n i : Nat} (hi : i < n) (hi2 : i < 2 ^ 32) (h : 1 ≤ i ∨ 2 ^ 32 ≤ n) : usub 32 i 1 < n := by
  unfold usub
  omega

attribute [local irreducible] usub

theorem run_initializeInner32 {xs ys d : List K} (hys : ys.Pairwise (· < ·)) (hd : d.length = xs.length * ys.length) {i j : Nat} (hi : i < xs.length) (hi' : usub 32 i 1 < xs.length)
    (hj : j < ys.length) (hj' : usub 32 j 1 < ys.length) (hj2 : j < 2 ^ 32) (x1 x2 t : K) (s : Interp2d K) (hs : Interp2d.Holds xs ys s) :
    ∃ s', (Interp2d.initializeInner32 (some d) ys.length i x1 x2 t j).run s = (.ok (), s') ∧ Interp2d.Holds xs ys s' := by
  have hdy := difference_ne hys hj hj' (usub_one_ne hj2).2
  have l11 : ys.length * usub 32 i 1 + usub 32 j 1 < d.length := by rw [hd]; exact Interp2d.idx_lt hi' hj'
  have l12 : ys.length * usub 32 i 1 + j < d.length := by rw [hd]; exact Interp2d.idx_lt hi' hj
  have l21 : ys.length * i + usub 32 j 1 < d.length := by rw [hd]; exact Interp2d.idx_lt hi hj'
  have l22 : ys.length * i + j < d.length := by rw [hd]; exact Interp2d.idx_lt hi hj
  refine ⟨_, Prod.ext (?_ : ((Interp2d.initializeInner32 (some d) ys.length i x1 x2 t j).run s).1 = .ok ()) rfl, ?_⟩ <;> unfold Interp2d.initializeInner32 <;>
    simp only [Act.run_bind, Act.run_get, Act.run_lift, hs.2.1, deref_some, vAt_lt hj, vAt_lt hj', fdiv_ok hdy, vAt_lt l11, vAt_lt l12, vAt_lt l21, vAt_lt l22, Act.run_update]
  exact ⟨hs.1, rfl, hs.2.2⟩

theorem run_initializeHead32 {xs ys : List K} (hxs : xs.Pairwise (· < ·)) {i : Nat} (hi : i < xs.length) (hi' : usub 32 i 1 < xs.length) (hi2 : i < 2 ^ 32) (s : Interp2d K)
    (hs : Interp2d.Holds xs ys s) : (Interp2d.initializeHead32 i).run s = (.ok (xs[usub 32 i 1], xs[i], 1 / (xs[i] - xs[usub 32 i 1])), s) := by
  unfold Interp2d.initializeHead32
  rw [Act.run_get_bind, hs.1, deref_some, Act.run_lift_ok_bind, vAt_lt hi', Act.run_lift_ok_bind, vAt_lt hi, Act.run_lift_ok_bind, fdiv_ok (difference_ne hxs hi hi' (usub_one_ne hi2).2),
    Act.run_lift_ok_bind]
  rfl

/-- C221 fails for `Initialize` of a 2D interpolator: on a well-formed table with `2^32` coordinates or more on one of the axes (and two at least on the first) it never returns. -/
theorem C221_init2d_refuted (B : Build) (xs ys d : List K) (hxs : xs.Pairwise (· < ·)) (hys : ys.Pairwise (· < ·)) (hd : d.length = xs.length * ys.length) (hx2 : 2 ≤ xs.length)
    (hy : 1 ≤ ys.length) (hn : 2 ^ 32 ≤ xs.length ∨ 2 ^ 32 ≤ ys.length) (s : Interp2d K) (turns : Nat) : Interp2d.init32 B (some xs) (some ys) (some d) turns s = none := by
  rw [Interp2d.init32, Interp2d.run_initializeBase B (by omega) (by omega) (pairwise_lt_le hxs) (pairwise_lt_le hys) s]
  change loopU32N xs.length (Interp2d.initializeOuter32 (some d) ys.length turns) turns 1 _ = none
  have hP : Interp2d.Holds xs ys (Interp2d.built s xs ys d (by omega) (by omega) 0) := ⟨rfl, rfl, rfl⟩
  by_cases hyl : 2 ^ 32 ≤ ys.length
  · cases turns with
    | zero => rfl
    | succ t =>
      have hu : usub 32 1 1 < xs.length := usub_one_lt (by omega) (by norm_num) (Or.inl le_rfl)
      rw [loopU32N, if_pos (by omega), Interp2d.initializeOuter32, run_initializeHead32 hxs (by omega) hu (by norm_num) _ hP]
      simp only
      rw [Act.loopU32_long (n := Interp2d.ny _) (by rw [hP.2.2]; exact hyl) _ (Interp2d.Holds xs ys) (fun j s hj hs =>
        run_initializeInner32 hys hd (by omega) hu (by omega) (usub_one_lt (by omega) hj (Or.inr hyl)) hj _ _ _ s hs) (t + 1) 1 _ (by norm_num) hP]
  · have hxl : 2 ^ 32 ≤ xs.length := by omega
    refine loopU32N_long hxl _ (Interp2d.Holds xs ys) (fun i s hi hs => ?_) turns 1 _ (by norm_num) hP
    have hu : usub 32 i 1 < xs.length := usub_one_lt (by omega) hi (Or.inr hxl)
    rw [Interp2d.initializeOuter32, run_initializeHead32 hxs (by omega) hu hi _ hs]
    simp only
    rw [hs.2.2]
    exact Act.loopU32_ends (by omega) _ (Interp2d.Holds xs ys) (fun j s h1 hj hs =>
      run_initializeInner32 hys hd (by omega) hu hj (usub_one_lt hj (by omega) (Or.inl h1)) (by omega) _ _ _ s hs) turns 1 s le_rfl hs

/-- C221, `Initialize` of a 2D interpolator, what holds: on a well-formed table with fewer than `2^32` coordinates on each axis it is that of C08. -/
theorem C221_init2d_partial (B : Build) (xs ys d : List K) (hxs : xs.Pairwise (· < ·)) (hys : ys.Pairwise (· < ·)) (hd : d.length = xs.length * ys.length) (hx : 1 ≤ xs.length)
    (hy : 1 ≤ ys.length) (hx32 : xs.length < 2 ^ 32) (hy32 : ys.length < 2 ^ 32) (s : Interp2d K) (turns : Nat) (htx : xs.length < turns) (hty : ys.length < turns) :
    Interp2d.init32 B (some xs) (some ys) (some d) turns s = some ((Interp2d.init B (some xs) (some ys) (some d)).run s) := by
  rw [Interp2d.init32, Interp2d.run_initializeBase B (by omega) (by omega) (pairwise_lt_le hxs) (pairwise_lt_le hys) s, Interp2d.run_init B (by omega) (by omega) hxs hys hd s]
  change loopU32N xs.length (Interp2d.initializeOuter32 (some d) ys.length turns) turns 1 _ = _
  have := loopU32N_short hx32 (Interp2d.initializeOuter32 (some d) ys.length turns) (fun i => Interp2d.built s xs ys d (by omega) (by omega) ((i - 1) * (ys.length - 1))) (fun i h1 hi => by
    obtain ⟨i, rfl⟩ : ∃ t, i = t + 1 := ⟨i - 1, by omega⟩
    have hP : Interp2d.Holds xs ys (Interp2d.built s xs ys d (by omega) (by omega) (i * (ys.length - 1))) := ⟨rfl, rfl, rfl⟩
    have hu : usub 32 (i + 1) 1 = i := by rw [usub_of_le (by omega) (by omega)]; omega
    simp only [Nat.add_sub_cancel]
    rw [Interp2d.initializeOuter32, run_initializeHead32 hxs hi (by omega) (by omega) _ hP]
    simp only [hu]
    have e := Act.loopU32_short (n := ys.length) hy32 (f := Interp2d.initializeInner32 (some d) ys.length (i + 1) xs[i] xs[i + 1] (1 / (xs[i + 1] - xs[i])))
      (g := Interp2d.initializeInner (some d) ys.length (i + 1) xs[i] xs[i + 1] (1 / (xs[i + 1] - xs[i]))) (fun j h1 h2 => by
        unfold Interp2d.initializeInner32 Interp2d.initializeInner
        rw [usub_of_le h1 h2, hu]
        rfl) (ys.length - 1) turns 1 (Interp2d.built s xs ys d (by omega) (by omega) (i * (ys.length - 1))) le_rfl (by omega) (by omega)
    have r := Act.loop_ok (lo := 1) (hi := ys.length) (by omega) (fun j => Interp2d.built s xs ys d (by omega) (by omega) (i * (ys.length - 1) + (j - 1)))
      (f := Interp2d.initializeInner (some d) ys.length (i + 1) xs[i] xs[i + 1] (1 / (xs[i + 1] - xs[i]))) (fun j h1 h2 => by
        obtain ⟨j, rfl⟩ : ∃ t, j = t + 1 := ⟨j - 1, by omega⟩
        simpa using Interp2d.run_initializeInner (by omega) (by omega) hys hd s i j hi h2)
    simp only [Nat.sub_self, add_zero] at r
    rw [show (i + 1) * (ys.length - 1) = i * (ys.length - 1) + (ys.length - 1) by ring, ← r]
    exact e) (xs.length - 1) turns 1 le_rfl (by omega) (by omega)
  simpa using this

end

/-! ## The hypotheses are met -/

/-- There are vectors of every length, in increasing order. -/
theorem exists_increasing (n : Nat) : ∃ xs : List ℚ, xs.length = n ∧ xs.Pairwise (· < ·) := by
  refine ⟨(List.range n).map fun i : ℕ => (i : ℚ), by simp, ?_⟩
  exact List.pairwise_map.2 (List.pairwise_lt_range.imp (fun h => by exact_mod_cast h))

example : vMinus32 ⟨true⟩ [(5 : ℚ), 7] [1, 2] = .ok [4, 5] := by
  rw [C221_minus_partial _ _ _ (by simp), (C55_elementwise _ [(5 : ℚ), 7] [1, 2] rfl).2.1]
  norm_num

example : ∃ x y : List ℚ, x.length = 2 ^ 32 + 3 ∧ door32 ⟨false⟩ x 0 1 1 = .ok y ∧ y.length < x.length := by
  obtain ⟨x, hx, -⟩ := exists_increasing (2 ^ 32 + 3)
  obtain ⟨y, h1, h2⟩ := (C221_door_long x 0 1 1 (by omega)).2
  exact ⟨x, y, hx, h1, h2⟩

example (turns : Nat) (ht : 2 < turns) : isCloseVec32 ⟨true⟩ [(1 : ℚ), 2] [1, 3] 0 0 turns = some (.ok false) := by
  rw [C221_isClose_partial ⟨true⟩ [(1 : ℚ), 2] [1, 3] 0 0 rfl (by simp) turns (by simpa using ht)]
  norm_num [isCloseVec, isCloseLoop, cassert, vIdx, isClose]

example : ∃ xs ys : List ℚ, xs.length = 2 ^ 32 ∧ xs.Pairwise (· < ·) ∧ ∀ B turns, Interp1d.init32 B (some xs) (some ys) turns (Interp1d.fresh ℚ ℚ) = none := by
  obtain ⟨x, hx, hp⟩ := exists_increasing (2 ^ 32)
  exact ⟨x, x, hx, hp, fun B turns => C221_init_refuted B x x hp rfl (by omega) _ turns⟩

example : Interp1d.init32 ⟨true⟩ (some [(0 : ℚ), 1]) (some [(3 : ℚ), 4]) 3 (Interp1d.fresh ℚ ℚ) =
    some ((Interp1d.init ⟨true⟩ (some [(0 : ℚ), 1]) (some [(3 : ℚ), 4])).run (Interp1d.fresh ℚ ℚ)) :=
  C221_init_partial ⟨true⟩ _ _ (by simp) _ 3 (by simp)

/-- A table of two points evaluated on `2^31` abscissae, all in range. -/
example : ∃ (s : Interp1d ℚ ℚ) (xv : List ℚ), Interp1d.evalVec32 .saturate s xv = .ub ∧ ∀ x ∈ xv, ∃ y, Interp1d.eval .saturate s x = .ok y := by
  have i1 := Interp1d.run_init ⟨true⟩ (xs := ([0, 1] : List ℚ)) (ys := ([3, 4] : List ℚ)) (by simp) rfl (by simp) (Interp1d.fresh ℚ ℚ)
  obtain ⟨xv, hx⟩ : ∃ xv : List ℚ, xv = List.replicate (2 ^ 31) 0 := ⟨_, rfl⟩
  have hl : xv.length = 2 ^ 31 := by rw [hx, List.length_replicate]
  have hm : ∀ x ∈ xv, x = 0 := fun x h => by rw [hx] at h; exact List.eq_of_mem_replicate h
  have hok : ∀ x ∈ xv, ∃ y, Interp1d.eval .saturate (Interp1d.built (Interp1d.fresh ℚ ℚ) [0, 1] [3, 4] (by simp) 1) x = .ok y := fun x h => by
    rw [hm x h]
    exact ⟨3, by norm_num [Interp1d.eval, Interp1d.privEvalSaturate, Interp1d.built, Interp1d.fresh, Interp1d.privEvalBase, readVar, lowerBound, partitionedLT, vAt, Interp1d.slope, Interp1d.icept]⟩
  exact ⟨_, xv, C221_eval_refuted .saturate _ xv (by omega) hok, hok⟩

/-- A table of two variables with `2^32` abscissae and one ordinate. -/
example : ∃ xs ys d : List ℚ, xs.length = 2 ^ 32 ∧ d.length = xs.length * ys.length ∧ ∀ B turns, Interp2d.init32 B (some xs) (some ys) (some d) turns (Interp2d.fresh ℚ) = none := by
  obtain ⟨x, hx, hp⟩ := exists_increasing (2 ^ 32)
  exact ⟨x, [0], x, hx, by simp, fun B turns => C221_init2d_refuted B x [0] x hp (by simp) (by simp) (by omega) (by simp) (Or.inl (by omega)) _ turns⟩

example : Interp2d.init32 ⟨true⟩ (some [(0 : ℚ), 1]) (some [0, 2]) (some [1, 2, 3, 4]) 3 (Interp2d.fresh ℚ) =
    some ((Interp2d.init ⟨true⟩ (some [(0 : ℚ), 1]) (some [0, 2]) (some [1, 2, 3, 4])).run (Interp2d.fresh ℚ)) :=
  C221_init2d_partial ⟨true⟩ _ _ _ (by simp) (by simp) (by simp) (by simp) (by simp) (by simp) (by simp) _ 3 (by simp) (by simp)

end MU
