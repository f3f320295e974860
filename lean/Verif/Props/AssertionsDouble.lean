import Verif.Props.Assertions
import Verif.Model.Rounded
import Verif.Model.RoundedChebyshev
import Verif.Model.RoundedChebyshevCompute
import Verif.Model.RoundedChebyshevDerivative
import Verif.Model.RoundedConversion
import Verif.Model.RoundedInterp2d
import Verif.Model.RoundedPowerSeries
import Verif.Model.RoundedPowerSeriesD
import Verif.Model.RoundedSignals
import Verif.Model.RoundedSpecialFunctions
import Verif.Model.RoundedSpectrum
import Verif.Model.Ieee
import Verif.Model.IeeeChebyshev
import Verif.Model.IeeeCheck
import Verif.Model.IeeeGeneration
import Verif.Model.IeeeInterp2d
import Verif.Model.IeeeNumerics
import Verif.Model.IeeePowerSeries
import Verif.Model.IeeeSignals
import Verif.Model.IeeeStdVector
import Verif.Model.Integers
import Verif.Model.NonFinite
import Verif.Model.FixedMatrix
import Verif.Model.CholeskyUpdate

set_option linter.unusedSectionVars false
set_option linter.unusedTactic false
set_option linter.unreachableTactic false

/-!
# C224: assertions have no effect on the results in double arithmetic, in binary64 with its infinities, and on integers

The theorems of Props/Assertions on the models with rounding (`rnd`, any function), with overflow (`fl`), and on machine integers.
-/

namespace MU

/-! ## Interpolators -/

theorem initializeBase_agree {K Y : Type} [Field K] [LinearOrder K] (x : Option (List K)) (y : Option (List Y)) :
    ActAgree (Interp1d.initializeBase ⟨true⟩ x y) (Interp1d.initializeBase ⟨false⟩ x y) := by
  unfold Interp1d.initializeBase
  actagree

theorem initializeBase2d_agree {K : Type} [Field K] [LinearOrder K] (x y d : Option (List K)) :
    ActAgree (Interp2d.initializeBase ⟨true⟩ x y d) (Interp2d.initializeBase ⟨false⟩ x y d) := by
  unfold Interp2d.initializeBase
  actagree

theorem evalAsserts_agree {K : Type} [Field K] [LinearOrder K] (s : Interp2d K) (x y : K) : Agree (Interp2d.evalAsserts ⟨true⟩ s x y) (Interp2d.evalAsserts ⟨false⟩ s x y) :=
  .checks (.bind (.readVar _) fun _ => .bind (.readVar _) fun _ => .bind (.cassert _ _) fun _ => .bind (.readVar _) fun _ => .bind (.readVar _) fun _ => .cassert _ _)

theorem evalAssertsD_agree {K : Type} [Field K] [LinearOrder K] (s : Interp2d K) (x y : Dbl K) :
    Agree (Interp2d.evalAssertsD ⟨true⟩ s x y) (Interp2d.evalAssertsD ⟨false⟩ s x y) :=
  .checks (.bind (.readVar _) fun _ => .bind (.readVar _) fun _ => .bind (.cassert _ _) fun _ => .bind (.readVar _) fun _ => .bind (.readVar _) fun _ => .cassert _ _)

/-- **C224**: interpolation in one variable with rounding, with overflow, and at coordinates that are not finite. -/
theorem C224_double_interp1d (rnd : ℝ → ℝ) (fl : ℝ → Option ℝ) (m : InterpMethod) (xs ys : List ℝ) (x : ℝ) (X : Dbl ℝ) :
    Spec.SameWithoutAssertions (fun B => interp1dR rnd B m xs ys x) ∧ Spec.SameWithoutAssertions (fun B => interp1dI fl B m xs ys x) ∧
      Spec.SameWithoutAssertions (fun B => interp1dD B m xs ys X) :=
  ⟨Agree.same (.bind (.refl _) fun kind => .object (f := fun s => Interp1d.evalR rnd kind s x) (.bind (initializeBase_agree _ _) fun _ => .refl _) _ fun _ => .refl _),
    Agree.same (.bind (.refl _) fun kind => .object (f := fun s => Interp1d.evalI fl kind s x) (.bind (initializeBase_agree _ _) fun _ => .refl _) _ fun _ => .refl _),
    Agree.same (.bind (.refl _) fun kind => .object (f := fun s => Interp1d.evalD kind s X) (interp1d_init_agree _ _) _ fun _ => .refl _)⟩

theorem onBase_agree {m m' : Act (Interp2d ℝ) Unit} (h : ActAgree m m') : ActAgree (Interp2dI.onBase m) (Interp2dI.onBase m') := by
  refine ⟨fun s => ?_⟩
  rcases h.or s.base with h | h | h
  · exact .inl h
  · exact .inr (.inl h)
  · refine .inr (.inr ?_)
    show ((m'.run s.base).1, _) = ((m.run s.base).1, _)
    rw [h]

/-- **C224**: interpolation in two variables with rounding, with overflow, and at coordinates that are not finite. -/
theorem C224_double_interp2d (rnd : ℝ → ℝ) (fl : ℝ → Option ℝ) (m : InterpMethod) (xs ys data : List ℝ) (x y : ℝ) (X Y : Dbl ℝ) :
    Spec.SameWithoutAssertions (fun B => interp2dR rnd B m xs ys data x y) ∧ Spec.SameWithoutAssertions (fun B => interp2dI fl B m xs ys data x y) ∧
      Spec.SameWithoutAssertions (fun B => interp2dD B m xs ys data X Y) :=
  ⟨Agree.same (.bind (.refl _) fun _ => .object (f := fun s => Interp2d.evalR rnd ⟨true⟩ s x y) (f' := fun s => Interp2d.evalR rnd ⟨false⟩ s x y)
      (.bind (initializeBase2d_agree _ _ _) fun _ => .refl _) _ fun _ => .bind (evalAsserts_agree _ _ _) fun _ => .refl _),
    Agree.same (.bind (.refl _) fun _ => .object (f := fun s => Interp2dI.evalI fl ⟨true⟩ s x y) (f' := fun s => Interp2dI.evalI fl ⟨false⟩ s x y)
      (.bind (onBase_agree (initializeBase2d_agree _ _ _)) fun _ => .refl _) _ fun _ => .bind (evalAsserts_agree _ _ _) fun _ => .refl _),
    Agree.same (.bind (.refl _) fun _ => .object (f := fun s => Interp2d.evalD ⟨true⟩ s X Y) (f' := fun s => Interp2d.evalD ⟨false⟩ s X Y)
      (interp2d_init_agree _ _ _) _ fun _ => .bind (evalAssertsD_agree _ _ _) fun _ => .refl _)⟩

/-! ## Vectors and quadrature -/

theorem linspaceR_agree (rnd : ℝ → ℝ) (a b : ℝ) (n : Nat) : Agree (linspaceR rnd ⟨true⟩ a b n) (linspaceR rnd ⟨false⟩ a b n) := by
  unfold linspaceR
  agree

/-- An expression that is evaluated with assertions only. -/
theorem Agree.skip {α β : Type} {x : Res α} {f : α → Res β} {r : Res β} (hx : OnlyStops x) (hf : ∀ a, Agree (f a) r) : Agree (x >>= f) r := by
  rcases hx.or with h | h | ⟨a, h⟩
  · subst h; exact .aborts _
  · subst h; exact .ub _
  · subst h; exact hf a

theorem zipLoopI_agree (v w : List (Dbl ℝ)) (op : Dbl ℝ → Dbl ℝ → Res (Dbl ℝ)) : Agree (zipLoopI ⟨true⟩ v w op) (zipLoopI ⟨false⟩ v w op) := by
  unfold zipLoopI
  agree

theorem zipLoopZ_agree (v w : List Int) (op : Int → Int → Res Int) : Agree (zipLoopZ ⟨true⟩ v w op) (zipLoopZ ⟨false⟩ v w op) := by
  unfold zipLoopZ
  agree

theorem vMinusI_agree (fl : ℝ → Option ℝ) (v w : List (Dbl ℝ)) : Agree (vMinusI fl ⟨true⟩ v w) (vMinusI fl ⟨false⟩ v w) := by
  unfold vMinusI
  agree

theorem rampAssertI_agree (x : List (Dbl ℝ)) (a b : Dbl ℝ) : Agree (rampAssertI ⟨true⟩ x a b) (rampAssertI ⟨false⟩ x a b) :=
  .checks (.bind (.vIdx _ _) fun _ => .ite (.bind (.vIdx _ _) fun _ => .ite (.ok _) .aborts) .aborts)

/-- **C224**: vectors with rounding. -/
theorem C224_double_vectors (rnd : ℝ → ℝ) (pow : ℝ → ℝ → ℝ) (v w : List ℝ) (a b c d : ℝ) (n : Nat) (rev : Bool) :
    Spec.SameWithoutAssertions (fun B => linspaceR rnd B a b n) ∧
      Spec.SameWithoutAssertions (fun B => arangeR rnd B a b c) ∧
      Spec.SameWithoutAssertions (fun B => logspaceR rnd pow B a b n c) ∧
      Spec.SameWithoutAssertions (fun B => vAddR rnd B v w) ∧
      Spec.SameWithoutAssertions (fun B => vMinusR rnd B v w) ∧
      Spec.SameWithoutAssertions (fun B => vMultR rnd B v w) ∧
      Spec.SameWithoutAssertions (fun B => vDivideR rnd B v w) ∧
      Spec.SameWithoutAssertions (fun B => doorR rnd B v a b c) ∧
      Spec.SameWithoutAssertions (fun B => rampR rnd B v a b c d) ∧
      Spec.SameWithoutAssertions (fun B => isCloseVecR rnd B v w a b) ∧
      Spec.SameWithoutAssertions (fun B => trapzR rnd B v w) ∧
      Spec.SameWithoutAssertions (fun B => naiveConvolutionR rnd B v w a rev) := by
  refine ⟨Agree.same ?_, Agree.same ?_, Agree.same ?_, Agree.same ?_, Agree.same ?_, Agree.same ?_, Agree.same ?_, Agree.same ?_, Agree.same ?_, Agree.same ?_, Agree.same ?_, Agree.same ?_⟩
  · unfold linspaceR
    agree
    all_goals first | exact linspaceR_agree _ _ _ _ | exact zipLoop_agree _ _ _ | exact zipLoopI_agree _ _ _ | exact zipLoopZ_agree _ _ _ | exact vMinusI_agree _ _ _ | exact rampAssertI_agree _ _ _ | exact (rampAssert_agree (K := Int) _ _ _) | exact (rampAssert_agree (K := ℝ) _ _ _)
  · unfold arangeR
    agree
    all_goals first | exact linspaceR_agree _ _ _ _ | exact zipLoop_agree _ _ _ | exact zipLoopI_agree _ _ _ | exact zipLoopZ_agree _ _ _ | exact vMinusI_agree _ _ _ | exact rampAssertI_agree _ _ _ | exact (rampAssert_agree (K := Int) _ _ _) | exact (rampAssert_agree (K := ℝ) _ _ _)
  · unfold logspaceR
    agree
    all_goals first | exact linspaceR_agree _ _ _ _ | exact zipLoop_agree _ _ _ | exact zipLoopI_agree _ _ _ | exact zipLoopZ_agree _ _ _ | exact vMinusI_agree _ _ _ | exact rampAssertI_agree _ _ _ | exact (rampAssert_agree (K := Int) _ _ _) | exact (rampAssert_agree (K := ℝ) _ _ _)
  · unfold vAddR
    agree
    all_goals first | exact linspaceR_agree _ _ _ _ | exact zipLoop_agree _ _ _ | exact zipLoopI_agree _ _ _ | exact zipLoopZ_agree _ _ _ | exact vMinusI_agree _ _ _ | exact rampAssertI_agree _ _ _ | exact (rampAssert_agree (K := Int) _ _ _) | exact (rampAssert_agree (K := ℝ) _ _ _)
  · unfold vMinusR
    agree
    all_goals first | exact linspaceR_agree _ _ _ _ | exact zipLoop_agree _ _ _ | exact zipLoopI_agree _ _ _ | exact zipLoopZ_agree _ _ _ | exact vMinusI_agree _ _ _ | exact rampAssertI_agree _ _ _ | exact (rampAssert_agree (K := Int) _ _ _) | exact (rampAssert_agree (K := ℝ) _ _ _)
  · unfold vMultR
    agree
    all_goals first | exact linspaceR_agree _ _ _ _ | exact zipLoop_agree _ _ _ | exact zipLoopI_agree _ _ _ | exact zipLoopZ_agree _ _ _ | exact vMinusI_agree _ _ _ | exact rampAssertI_agree _ _ _ | exact (rampAssert_agree (K := Int) _ _ _) | exact (rampAssert_agree (K := ℝ) _ _ _)
  · unfold vDivideR
    agree
    all_goals first | exact linspaceR_agree _ _ _ _ | exact zipLoop_agree _ _ _ | exact zipLoopI_agree _ _ _ | exact zipLoopZ_agree _ _ _ | exact vMinusI_agree _ _ _ | exact rampAssertI_agree _ _ _ | exact (rampAssert_agree (K := Int) _ _ _) | exact (rampAssert_agree (K := ℝ) _ _ _)
  · unfold doorR
    agree
    all_goals first | exact linspaceR_agree _ _ _ _ | exact zipLoop_agree _ _ _ | exact zipLoopI_agree _ _ _ | exact zipLoopZ_agree _ _ _ | exact vMinusI_agree _ _ _ | exact rampAssertI_agree _ _ _ | exact (rampAssert_agree (K := Int) _ _ _) | exact (rampAssert_agree (K := ℝ) _ _ _)
  · unfold rampR
    agree
    all_goals first | exact linspaceR_agree _ _ _ _ | exact zipLoop_agree _ _ _ | exact zipLoopI_agree _ _ _ | exact zipLoopZ_agree _ _ _ | exact vMinusI_agree _ _ _ | exact rampAssertI_agree _ _ _ | exact (rampAssert_agree (K := Int) _ _ _) | exact (rampAssert_agree (K := ℝ) _ _ _)
  · unfold isCloseVecR
    agree
    all_goals first | exact linspaceR_agree _ _ _ _ | exact zipLoop_agree _ _ _ | exact zipLoopI_agree _ _ _ | exact zipLoopZ_agree _ _ _ | exact vMinusI_agree _ _ _ | exact rampAssertI_agree _ _ _ | exact (rampAssert_agree (K := Int) _ _ _) | exact (rampAssert_agree (K := ℝ) _ _ _)
  · unfold trapzR
    agree
    all_goals first | exact linspaceR_agree _ _ _ _ | exact zipLoop_agree _ _ _ | exact zipLoopI_agree _ _ _ | exact zipLoopZ_agree _ _ _ | exact vMinusI_agree _ _ _ | exact rampAssertI_agree _ _ _ | exact (rampAssert_agree (K := Int) _ _ _) | exact (rampAssert_agree (K := ℝ) _ _ _)
  · unfold naiveConvolutionR
    agree
    all_goals first | exact linspaceR_agree _ _ _ _ | exact zipLoop_agree _ _ _ | exact zipLoopI_agree _ _ _ | exact zipLoopZ_agree _ _ _ | exact vMinusI_agree _ _ _ | exact rampAssertI_agree _ _ _ | exact (rampAssert_agree (K := Int) _ _ _) | exact (rampAssert_agree (K := ℝ) _ _ _)

/-- **C224**: vectors in binary64. -/
theorem C224_binary64_vectors (fl : ℝ → Option ℝ) (v w : List (Dbl ℝ)) (xs ys : List ℝ) (a b c d : Dbl ℝ) (p q : ℝ) (n : Nat) :
    Spec.SameWithoutAssertions (fun B => linspaceI fl B p q n) ∧
      Spec.SameWithoutAssertions (fun B => vAddI fl B v w) ∧
      Spec.SameWithoutAssertions (fun B => vMinusI fl B v w) ∧
      Spec.SameWithoutAssertions (fun B => vMultI fl B v w) ∧
      Spec.SameWithoutAssertions (fun B => vDivideI fl B v w) ∧
      Spec.SameWithoutAssertions (fun B => doorI fl B v a b c) ∧
      Spec.SameWithoutAssertions (fun B => rampI fl B v a b c d) ∧
      Spec.SameWithoutAssertions (fun B => isCloseVecI fl B v w a b) ∧
      Spec.SameWithoutAssertions (fun B => trapzI fl B xs ys) := by
  refine ⟨Agree.same ?_, Agree.same ?_, Agree.same ?_, Agree.same ?_, Agree.same ?_, Agree.same ?_, Agree.same ?_, Agree.same ?_, Agree.same ?_⟩
  · unfold linspaceI
    agree
    all_goals first | exact linspaceR_agree _ _ _ _ | exact zipLoop_agree _ _ _ | exact zipLoopI_agree _ _ _ | exact zipLoopZ_agree _ _ _ | exact vMinusI_agree _ _ _ | exact rampAssertI_agree _ _ _ | exact (rampAssert_agree (K := Int) _ _ _) | exact (rampAssert_agree (K := ℝ) _ _ _)
  · unfold vAddI
    agree
    all_goals first | exact linspaceR_agree _ _ _ _ | exact zipLoop_agree _ _ _ | exact zipLoopI_agree _ _ _ | exact zipLoopZ_agree _ _ _ | exact vMinusI_agree _ _ _ | exact rampAssertI_agree _ _ _ | exact (rampAssert_agree (K := Int) _ _ _) | exact (rampAssert_agree (K := ℝ) _ _ _)
  · unfold vMinusI
    agree
    all_goals first | exact linspaceR_agree _ _ _ _ | exact zipLoop_agree _ _ _ | exact zipLoopI_agree _ _ _ | exact zipLoopZ_agree _ _ _ | exact vMinusI_agree _ _ _ | exact rampAssertI_agree _ _ _ | exact (rampAssert_agree (K := Int) _ _ _) | exact (rampAssert_agree (K := ℝ) _ _ _)
  · unfold vMultI
    agree
    all_goals first | exact linspaceR_agree _ _ _ _ | exact zipLoop_agree _ _ _ | exact zipLoopI_agree _ _ _ | exact zipLoopZ_agree _ _ _ | exact vMinusI_agree _ _ _ | exact rampAssertI_agree _ _ _ | exact (rampAssert_agree (K := Int) _ _ _) | exact (rampAssert_agree (K := ℝ) _ _ _)
  · unfold vDivideI
    agree
    all_goals first | exact linspaceR_agree _ _ _ _ | exact zipLoop_agree _ _ _ | exact zipLoopI_agree _ _ _ | exact zipLoopZ_agree _ _ _ | exact vMinusI_agree _ _ _ | exact rampAssertI_agree _ _ _ | exact (rampAssert_agree (K := Int) _ _ _) | exact (rampAssert_agree (K := ℝ) _ _ _)
  · unfold doorI
    agree
    all_goals first | exact linspaceR_agree _ _ _ _ | exact zipLoop_agree _ _ _ | exact zipLoopI_agree _ _ _ | exact zipLoopZ_agree _ _ _ | exact vMinusI_agree _ _ _ | exact rampAssertI_agree _ _ _ | exact (rampAssert_agree (K := Int) _ _ _) | exact (rampAssert_agree (K := ℝ) _ _ _)
  · unfold rampI
    agree
    all_goals first | exact linspaceR_agree _ _ _ _ | exact zipLoop_agree _ _ _ | exact zipLoopI_agree _ _ _ | exact zipLoopZ_agree _ _ _ | exact vMinusI_agree _ _ _ | exact rampAssertI_agree _ _ _ | exact (rampAssert_agree (K := Int) _ _ _) | exact (rampAssert_agree (K := ℝ) _ _ _)
  · unfold isCloseVecI
    agree
    all_goals first | exact linspaceR_agree _ _ _ _ | exact zipLoop_agree _ _ _ | exact zipLoopI_agree _ _ _ | exact zipLoopZ_agree _ _ _ | exact vMinusI_agree _ _ _ | exact rampAssertI_agree _ _ _ | exact (rampAssert_agree (K := Int) _ _ _) | exact (rampAssert_agree (K := ℝ) _ _ _)
  · unfold trapzI
    agree
    all_goals first | exact linspaceR_agree _ _ _ _ | exact zipLoop_agree _ _ _ | exact zipLoopI_agree _ _ _ | exact zipLoopZ_agree _ _ _ | exact vMinusI_agree _ _ _ | exact rampAssertI_agree _ _ _ | exact (rampAssert_agree (K := Int) _ _ _) | exact (rampAssert_agree (K := ℝ) _ _ _)

/-- **C224**: vectors of integers of `w` bits. -/
theorem C224_integer_vectors (rnd : ℝ → ℝ) (w : Nat) (u v : List Int) (a b c d : Int) (n : Nat) :
    Spec.SameWithoutAssertions (fun B => linspaceZ B a b n) ∧
      Spec.SameWithoutAssertions (fun B => vAddZ w B u v) ∧
      Spec.SameWithoutAssertions (fun B => vMinusZ w B u v) ∧
      Spec.SameWithoutAssertions (fun B => vMultZ w B u v) ∧
      Spec.SameWithoutAssertions (fun B => vDivideZ w B u v) ∧
      Spec.SameWithoutAssertions (fun B => doorZ B u a b c) ∧
      Spec.SameWithoutAssertions (fun B => rampZ B u a b c d) ∧
      Spec.SameWithoutAssertions (fun B => trapzZ rnd B u v) := by
  refine ⟨Agree.same ?_, Agree.same ?_, Agree.same ?_, Agree.same ?_, Agree.same ?_, Agree.same ?_, Agree.same ?_, Agree.same ?_⟩
  · unfold linspaceZ
    agree
    all_goals first | exact linspaceR_agree _ _ _ _ | exact zipLoop_agree _ _ _ | exact zipLoopI_agree _ _ _ | exact zipLoopZ_agree _ _ _ | exact vMinusI_agree _ _ _ | exact rampAssertI_agree _ _ _ | exact (rampAssert_agree (K := Int) _ _ _) | exact (rampAssert_agree (K := ℝ) _ _ _)
  · unfold vAddZ
    agree
    all_goals first | exact linspaceR_agree _ _ _ _ | exact zipLoop_agree _ _ _ | exact zipLoopI_agree _ _ _ | exact zipLoopZ_agree _ _ _ | exact vMinusI_agree _ _ _ | exact rampAssertI_agree _ _ _ | exact (rampAssert_agree (K := Int) _ _ _) | exact (rampAssert_agree (K := ℝ) _ _ _)
  · unfold vMinusZ
    agree
    all_goals first | exact linspaceR_agree _ _ _ _ | exact zipLoop_agree _ _ _ | exact zipLoopI_agree _ _ _ | exact zipLoopZ_agree _ _ _ | exact vMinusI_agree _ _ _ | exact rampAssertI_agree _ _ _ | exact (rampAssert_agree (K := Int) _ _ _) | exact (rampAssert_agree (K := ℝ) _ _ _)
  · unfold vMultZ
    agree
    all_goals first | exact linspaceR_agree _ _ _ _ | exact zipLoop_agree _ _ _ | exact zipLoopI_agree _ _ _ | exact zipLoopZ_agree _ _ _ | exact vMinusI_agree _ _ _ | exact rampAssertI_agree _ _ _ | exact (rampAssert_agree (K := Int) _ _ _) | exact (rampAssert_agree (K := ℝ) _ _ _)
  · unfold vDivideZ
    agree
    all_goals first | exact linspaceR_agree _ _ _ _ | exact zipLoop_agree _ _ _ | exact zipLoopI_agree _ _ _ | exact zipLoopZ_agree _ _ _ | exact vMinusI_agree _ _ _ | exact rampAssertI_agree _ _ _ | exact (rampAssert_agree (K := Int) _ _ _) | exact (rampAssert_agree (K := ℝ) _ _ _)
  · unfold doorZ
    agree
    all_goals first | exact linspaceR_agree _ _ _ _ | exact zipLoop_agree _ _ _ | exact zipLoopI_agree _ _ _ | exact zipLoopZ_agree _ _ _ | exact vMinusI_agree _ _ _ | exact rampAssertI_agree _ _ _ | exact (rampAssert_agree (K := Int) _ _ _) | exact (rampAssert_agree (K := ℝ) _ _ _)
  · exact .bind (.cassert _) fun _ => .skip (.vIdx _ _) fun _ => .skip (.vIdx _ _) fun _ => .skip (.cassert _ _) fun _ => .refl _
  · unfold trapzZ
    agree
    all_goals first | exact linspaceR_agree _ _ _ _ | exact zipLoop_agree _ _ _ | exact zipLoopI_agree _ _ _ | exact zipLoopZ_agree _ _ _ | exact vMinusI_agree _ _ _ | exact rampAssertI_agree _ _ _ | exact (rampAssert_agree (K := Int) _ _ _) | exact (rampAssert_agree (K := ℝ) _ _ _)

/-! ## Special functions -/

theorem continuedFractionR_agree (rnd : ℝ → ℝ) (a b : List ℝ) (x : ℝ) : Agree (continuedFractionR rnd ⟨true⟩ a b x) (continuedFractionR rnd ⟨false⟩ a b x) := by
  unfold continuedFractionR
  agree

/-- **C224**: the approximations of exponential integrals with rounding. -/
theorem C224_double_exponential_integrals (rnd : ℝ → ℝ) (M : ELib) (TR : Nat → ℝ → ℝ) (expint : ℝ → Res ℝ) (x : ℝ) :
    Spec.SameWithoutAssertions (fun B => eiApproximationR rnd M TR B x) ∧
      Spec.SameWithoutAssertions (fun B => expEiR rnd M expint B x) ∧
      Spec.SameWithoutAssertions (fun B => e1ApproximationR rnd M B x) := by
  refine ⟨Agree.same ?_, Agree.same ?_, Agree.same ?_⟩
  · unfold eiApproximationR
    agree
    all_goals first | exact continuedFractionR_agree _ _ _ _
  · unfold expEiR
    agree
    all_goals first | exact continuedFractionR_agree _ _ _ _
  · unfold e1ApproximationR
    agree
    all_goals first | exact continuedFractionR_agree _ _ _ _

/-! ## Series -/

/-- **C224**: Chebyshev series of one variable with rounding. -/
theorem C224_double_chebyshev1d (rnd cosR : ℝ → ℝ) (TR TpR : Nat → ℝ → ℝ) (s : CS1 ℝ) (x : ℝ) :
    Spec.SameWithoutAssertions (fun B => CS1.computeAiR rnd cosR TR B s) ∧
      Spec.SameWithoutAssertions (fun B => CS1.evaluateR rnd B s x) ∧
      Spec.SameWithoutAssertions (fun B => CS1.evaluateDerivativeXR rnd TpR B s x) ∧
      Spec.SameWithoutAssertions (fun B => CS1.computeBiR rnd B s) := by
  refine ⟨Agree.same ?_, Agree.same ?_, Agree.same ?_, Agree.same ?_⟩
  · unfold CS1.computeAiR
    agree
  · unfold CS1.evaluateR
    agree
  · unfold CS1.evaluateDerivativeXR
    agree
  · unfold CS1.computeBiR
    agree

/-- **C224**: Chebyshev series of two variables with rounding. -/
theorem C224_double_chebyshev2d (rnd cosR : ℝ → ℝ) (TR TpR : Nat → ℝ → ℝ) (s : CS2 ℝ) (x y : ℝ) :
    Spec.SameWithoutAssertions (fun B => CS2.computeAijR rnd cosR TR B s) ∧
      Spec.SameWithoutAssertions (fun B => CS2.evaluateR rnd B s x y) ∧
      Spec.SameWithoutAssertions (fun B => CS2.evaluateDerivativeXR rnd TpR B s x y) ∧
      Spec.SameWithoutAssertions (fun B => CS2.evaluateDerivativeYR rnd TpR B s x y) ∧
      Spec.SameWithoutAssertions (fun B => CS2.computeBijR rnd B s) := by
  refine ⟨Agree.same ?_, Agree.same ?_, Agree.same ?_, Agree.same ?_, Agree.same ?_⟩
  · unfold CS2.computeAijR
    agree
  · unfold CS2.evaluateR
    agree
  · unfold CS2.evaluateDerivativeXR
    agree
  · unfold CS2.evaluateDerivativeYR
    agree
  · unfold CS2.computeBijR
    agree

/-- **C224**: Chebyshev series of three variables with rounding. -/
theorem C224_double_chebyshev3d (rnd cosR : ℝ → ℝ) (TR TpR : Nat → ℝ → ℝ) (s : CS3 ℝ) (x y z : ℝ) :
    Spec.SameWithoutAssertions (fun B => CS3.computeAijkR rnd cosR TR B s) ∧
      Spec.SameWithoutAssertions (fun B => CS3.evaluateR rnd B s x y z) ∧
      Spec.SameWithoutAssertions (fun B => CS3.evaluateDerivativeXR rnd TR TpR B s x y z) ∧
      Spec.SameWithoutAssertions (fun B => CS3.evaluateDerivativeYR rnd TR TpR B s x y z) ∧
      Spec.SameWithoutAssertions (fun B => CS3.evaluateDerivativeZR rnd TR TpR B s x y z) ∧
      Spec.SameWithoutAssertions (fun B => CS3.computeBijkR rnd B s) := by
  refine ⟨Agree.same ?_, Agree.same ?_, Agree.same ?_, Agree.same ?_, Agree.same ?_, Agree.same ?_⟩
  · unfold CS3.computeAijkR
    agree
  · unfold CS3.evaluateR
    agree
  · unfold CS3.evaluateDerivativeXR CS3.sumLoopR
    agree
  · unfold CS3.evaluateDerivativeYR CS3.sumLoopR
    agree
  · unfold CS3.evaluateDerivativeZR CS3.sumLoopR
    agree
  · unfold CS3.computeBijkR
    agree

/-- **C224**: power series of one and two variables with rounding. -/
theorem C224_double_power (rnd : ℝ → ℝ) (s : PS1 ℝ) (t : PS2 ℝ) (x y : ℝ) :
    Spec.SameWithoutAssertions (fun B => PS1.evaluateR rnd B s x) ∧
      Spec.SameWithoutAssertions (fun B => PS1.evaluateDerivativeXR rnd B s x) ∧
      Spec.SameWithoutAssertions (fun B => PS2.evaluateR rnd B t x y) ∧
      Spec.SameWithoutAssertions (fun B => PS2.evaluateDerivativeXR rnd B t x y) ∧
      Spec.SameWithoutAssertions (fun B => PS2.evaluateDerivativeYR rnd B t x y) := by
  refine ⟨Agree.same ?_, Agree.same ?_, Agree.same ?_, Agree.same ?_, Agree.same ?_⟩
  · unfold PS1.evaluateR
    agree
  · unfold PS1.evaluateDerivativeXR
    agree
  · unfold PS2.evaluateR
    agree
  · unfold PS2.evaluateDerivativeXR
    agree
  · unfold PS2.evaluateDerivativeYR
    agree

/-- **C224**: power series of three variables with rounding. -/
theorem C224_double_power3d (rnd : ℝ → ℝ) (s : PS3 ℝ) (x y z : ℝ) (cij : Mat ℝ) :
    Spec.SameWithoutAssertions (fun B => PS3.evaluateR rnd B s x y z) ∧
      Spec.SameWithoutAssertions (fun B => PS3.evaluateDerivativeXR rnd B s x y z) ∧
      Spec.SameWithoutAssertions (fun B => PS3.evaluateDerivativeYR rnd B s x y z) ∧
      Spec.SameWithoutAssertions (fun B => PS3.evaluateDerivativeZR rnd B s x y z) ∧
      Spec.SameWithoutAssertions (fun B => PS3.evaluateFDfdxDfdyR rnd B s x y z) ∧
      Spec.SameWithoutAssertions (fun B => PS3.evaluateZinfR rnd B s x y) ∧
      Spec.SameWithoutAssertions (fun B => PS3.evaluateDerivativeXZinfR rnd B s x y) ∧
      Spec.SameWithoutAssertions (fun B => PS3.evaluateDerivativeYZinfR rnd B s x y) ∧
      Spec.SameWithoutAssertions (fun B => PS3.computeCijR rnd B s z) ∧
      Spec.SameWithoutAssertions (fun B => PS3.evaluateZPredefinedR rnd B s x y cij) ∧
      Spec.SameWithoutAssertions (fun B => PS3.evaluateDerivativeXZPredefinedR rnd B s x y cij) ∧
      Spec.SameWithoutAssertions (fun B => PS3.evaluateDerivativeYZPredefinedR rnd B s x y cij) ∧
      Spec.SameWithoutAssertions (fun B => PS3.evaluateFDfdxDfdyZPredefinedR rnd B s x y cij) := by
  refine ⟨Agree.same ?_, Agree.same ?_, Agree.same ?_, Agree.same ?_, Agree.same ?_, Agree.same ?_, Agree.same ?_, Agree.same ?_, Agree.same ?_, Agree.same ?_, Agree.same ?_, Agree.same ?_, Agree.same ?_⟩
  · unfold PS3.evaluateR
    agree
  · unfold PS3.evaluateDerivativeXR PS3.evaluateDerivativeXUnitR
    agree
  · unfold PS3.evaluateDerivativeYR PS3.evaluateDerivativeYUnitR
    agree
  · unfold PS3.evaluateDerivativeZR PS3.evaluateDerivativeZUnitR
    agree
  · unfold PS3.evaluateFDfdxDfdyR PS3.evaluateFDfdxDfdyUnitR
    agree
  · unfold PS3.evaluateZinfR PS3.evaluateUnitR
    agree
  · unfold PS3.evaluateDerivativeXZinfR PS3.evaluateDerivativeXUnitR
    agree
  · unfold PS3.evaluateDerivativeYZinfR PS3.evaluateDerivativeYUnitR
    agree
  · unfold PS3.computeCijR PS3.computeCijUnitR
    agree
  · unfold PS3.evaluateZPredefinedR
    agree
  · unfold PS3.evaluateDerivativeXZPredefinedR
    agree
  · unfold PS3.evaluateDerivativeYZPredefinedR
    agree
  · unfold PS3.evaluateFDfdxDfdyZPredefinedR
    agree

/-- **C224**: series in binary64. -/
theorem C224_binary64_series (fl : ℝ → Option ℝ) (c1 : CS1 ℝ) (c2 : CS2 ℝ) (c3 : CS3 ℝ) (p1 : PS1 ℝ) (p2 : PS2 ℝ) (p3 : PS3 ℝ) (x y z : ℝ) :
    Spec.SameWithoutAssertions (fun B => CS1.evaluateI fl B c1 x) ∧
      Spec.SameWithoutAssertions (fun B => CS2.evaluateI fl B c2 x y) ∧
      Spec.SameWithoutAssertions (fun B => CS3.evaluateI fl B c3 x y z) ∧
      Spec.SameWithoutAssertions (fun B => PS1.evaluateI fl B p1 x) ∧
      Spec.SameWithoutAssertions (fun B => PS2.evaluateI fl B p2 x y) ∧
      Spec.SameWithoutAssertions (fun B => PS3.evaluateI fl B p3 x y z) := by
  refine ⟨Agree.same ?_, Agree.same ?_, Agree.same ?_, Agree.same ?_, Agree.same ?_, Agree.same ?_⟩
  · unfold CS1.evaluateI
    agree
  · unfold CS2.evaluateI
    agree
  · unfold CS3.evaluateI
    agree
  · unfold PS1.evaluateI
    agree
  · unfold PS2.evaluateI
    agree
  · unfold PS3.evaluateI
    agree

/-! ## Matrices of fixed size, Cholesky updates -/

/-- **C224**: matrices of fixed size. -/
theorem C224_fixed_matrices {n c : Nat} (E : EigenLA) (A : SqMat n) (i j : Nat) (a : ℝ) (b : Matrix (Fin n) (Fin c) ℝ) :
    Spec.SameWithoutAssertions (fun B => fixAt B A i j) ∧
      Spec.SameWithoutAssertions (fun B => fixPut B A i j a) ∧
      Spec.SameWithoutAssertions (fun B => fixColumn B A j) ∧
      Spec.SameWithoutAssertions (fun B => fixRow B A i) ∧
      Spec.SameWithoutAssertions (fun B => fixQR E B A) ∧
      Spec.SameWithoutAssertions (fun B => fixLU E B A) ∧
      Spec.SameWithoutAssertions (fun B => fixLeastSquareSolver E B A b) := by
  refine ⟨Agree.same ?_, Agree.same ?_, Agree.same ?_, Agree.same ?_, Agree.same ?_, Agree.same ?_, Agree.same ?_⟩
  · unfold fixAt
    agree
  · unfold fixPut
    agree
  · unfold fixColumn
    agree
  · unfold fixRow
    agree
  · unfold fixQR
    agree
    all_goals first | exact mulM_agree _ _ | exact subM_agree _ _ | exact addM_agree _ _ | exact blockM_agree _ _ _ _ _ | exact setBlock_agree _ _ _ _ _ _
  · unfold fixLU
    agree
    all_goals first | exact mulM_agree _ _ | exact subM_agree _ _ | exact addM_agree _ _ | exact blockM_agree _ _ _ _ _ | exact setBlock_agree _ _ _ _ _ _
  · unfold fixLeastSquareSolver
    agree

/-- **C224**: the updates of Cholesky factors. -/
theorem C224_cholesky_update (A v : Mat ℝ) (sigma : ℝ) :
    Spec.SameWithoutAssertions (fun B => getCholeskyUpdate B A v sigma) ∧
      Spec.SameWithoutAssertions (fun B => inPlaceCholeskyUpdate B A v sigma) := by
  refine ⟨Agree.same ?_, Agree.same ?_⟩
  · unfold getCholeskyUpdate
    agree
  · unfold inPlaceCholeskyUpdate
    agree

/-! ## The hypotheses are met -/

/-- With any rounding both builds add two vectors. -/
example (rnd : ℝ → ℝ) (B : Build) : vAddR rnd B [1, 2] [3, 4] = .ok [rnd (1 + 3), rnd (2 + 4)] := by
  obtain ⟨_ | _⟩ := B <;> simp [vAddR, zipLoop, MU.cassert, MU.forRange, MU.forN, MU.vIdx, vSet, List.replicate]

/-- Integers: both builds divide; both are undefined for a division by zero, and a wrong size stops the build with assertions only. -/
example : vDivideZ 32 ⟨true⟩ [7] [2] = .ok [3] ∧ vDivideZ 32 ⟨false⟩ [7] [2] = .ok [3] ∧ vDivideZ 32 ⟨true⟩ [7] [] = .aborts := by
  refine ⟨?_, ?_, ?_⟩ <;> decide

end MU
