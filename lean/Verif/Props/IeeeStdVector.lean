import Verif.Model.IeeeStdVector
import Verif.Props.IeeeSignals
import Verif.Lemmas.IeeeNear

/-!
# Element-wise operations and sums of vectors of doubles: C195
-/

set_option linter.unusedSectionVars false

namespace MU
open Spec Dbl

variable {fl : ℝ → Option ℝ}

theorem ofReal_rounded (hfl : Ieee fl) (x : ℝ) : RoundedTo (x : EReal) (ofReal fl x) := by
  refine ⟨fun h => absurd h (EReal.coe_ne_top x), fun h => absurd h (EReal.coe_ne_bot x), fun y h => ?_⟩
  obtain rfl : x = y := EReal.coe_eq_coe_iff.1 h
  refine ⟨fun h => ?_, fun h => ofReal_pinf hfl h, fun h => ofReal_ninf hfl h⟩
  obtain ⟨r, h1, h2, h3⟩ := (hfl x).1 h
  exact ⟨r, ofReal_some h1, h2, h3⟩

theorem rounded_top : RoundedTo ⊤ .pinf := ⟨fun _ => rfl, fun h => by simp at h, fun x h => by simp at h⟩

theorem rounded_bot : RoundedTo ⊥ .ninf := ⟨fun h => by simp at h, fun _ => rfl, fun x h => by simp at h⟩

theorem rounded_zero : RoundedTo 0 (.num 0) := by
  refine ⟨fun h => by simp at h, fun h => by simp at h, fun x h => ?_⟩
  obtain rfl : (0 : ℝ) = x := EReal.coe_eq_coe_iff.1 h
  have hp : 0 < overflow64 := lt_of_le_of_lt (abs_nonneg _) (double64_le double64_zero)
  exact ⟨fun _ => ⟨0, rfl, double64_zero, fun z _ => by simp⟩, fun h => absurd h (not_le.2 hp), fun h => absurd h (by simpa using hp)⟩

/-- Each sum. -/
theorem fadd_rounded (hfl : Ieee fl) (a b : Dbl ℝ) : (NoSum a b → fadd fl a b = .nan) ∧ (¬ NoSum a b → RoundedTo (ext a + ext b) (fadd fl a b)) := by
  refine ⟨?_, fun h => ?_⟩
  · rintro (rfl | rfl | ⟨rfl, rfl⟩ | ⟨rfl, rfl⟩)
    · cases b <;> rfl
    · cases a <;> rfl
    · rfl
    · rfl
  · cases a <;> cases b <;> simp only [fadd, Dbl.add, rounded, ext] <;> first | (exfalso; apply h; simp [NoSum]; done) | skip
    · rw [← EReal.coe_add]
      exact ofReal_rounded hfl _
    · rw [EReal.coe_add_top]; exact rounded_top
    · rw [EReal.add_bot]; exact rounded_bot
    · rw [EReal.top_add_coe]; exact rounded_top
    · exact rounded_top
    · rw [EReal.bot_add]; exact rounded_bot
    · rw [EReal.bot_add]; exact rounded_bot

theorem ext_neg {a : Dbl ℝ} : ext (neg a) = -ext a := by cases a <;> simp [ext, neg]

/-- Each difference. -/
theorem fsub_rounded (hfl : Ieee fl) (a b : Dbl ℝ) : (NoSum a (neg b) → fsub fl a b = .nan) ∧ (¬ NoSum a (neg b) → RoundedTo (ext a - ext b) (fsub fl a b)) := by
  have h := fadd_rounded hfl a (neg b)
  rw [ext_neg, ← sub_eq_add_neg] at h
  exact h

/-- Each product. -/
theorem fmul_rounded (hfl : Ieee fl) (a b : Dbl ℝ) : (NoProduct a b → fmul fl a b = .nan) ∧ (¬ NoProduct a b → RoundedTo (ext a * ext b) (fmul fl a b)) := by
  refine ⟨?_, fun h => ?_⟩
  · rintro (rfl | rfl | ⟨rfl, rfl | rfl⟩ | ⟨rfl | rfl, rfl⟩)
    · cases b <;> rfl
    · cases a <;> rfl
    all_goals simp [fmul, Dbl.mul, rounded]
  · cases a <;> cases b <;> simp only [fmul, Dbl.mul, ext] <;> first | (exfalso; apply h; simp [NoProduct]; done) | skip
    · rw [← EReal.coe_mul]
      exact ofReal_rounded hfl _
    · rename_i x
      rcases lt_trichotomy x 0 with hx | rfl | hx
      · rw [if_neg (not_lt.2 hx.le), if_pos hx, EReal.coe_mul_top_of_neg hx]; exact rounded_bot
      · exact absurd (by simp [NoProduct]) h
      · rw [if_pos hx, EReal.coe_mul_top_of_pos hx]; exact rounded_top
    · rename_i x
      rcases lt_trichotomy x 0 with hx | rfl | hx
      · rw [if_neg (not_lt.2 hx.le), if_pos hx, EReal.coe_mul_bot_of_neg hx]; exact rounded_top
      · exact absurd (by simp [NoProduct]) h
      · rw [if_pos hx, EReal.coe_mul_bot_of_pos hx]; exact rounded_bot
    · rename_i x
      rcases lt_trichotomy x 0 with hx | rfl | hx
      · rw [if_neg (not_lt.2 hx.le), if_pos hx, EReal.top_mul_coe_of_neg hx]; exact rounded_bot
      · exact absurd (by simp [NoProduct]) h
      · rw [if_pos hx, EReal.top_mul_coe_of_pos hx]; exact rounded_top
    · rw [EReal.top_mul_top]; exact rounded_top
    · rw [EReal.top_mul_bot]; exact rounded_bot
    · rename_i x
      rcases lt_trichotomy x 0 with hx | rfl | hx
      · rw [if_neg (not_lt.2 hx.le), if_pos hx, EReal.bot_mul_coe_of_neg hx]; exact rounded_top
      · exact absurd (by simp [NoProduct]) h
      · rw [if_pos hx, EReal.bot_mul_coe_of_pos hx]; exact rounded_bot
    · rw [EReal.bot_mul_top]; exact rounded_bot
    · rw [EReal.bot_mul_bot]; exact rounded_top

/-- Each quotient by a number other than zero. -/
theorem fquot_rounded (hfl : Ieee fl) (a : Dbl ℝ) {b : Dbl ℝ} (hb : b ≠ .num 0) :
    ∃ c, fquot fl a b = .ok c ∧ (NoQuotient a b → c = .nan) ∧
      (¬ NoQuotient a b → RoundedTo (ext a / ext b) c) := by
  cases b with
  | num d =>
    have hd : d ≠ 0 := fun h => hb (by rw [h])
    refine ⟨_, by rw [fquot, if_neg hd], ?_, fun h => ?_⟩
    · rintro (rfl | h | ⟨-, h | h⟩)
      · rfl
      · cases h
      · cases h
      · cases h
    · have h1 := (fmul_rounded hfl a (.num d⁻¹)).2 (by
        rintro (rfl | h' | ⟨-, h' | h'⟩ | ⟨-, h'⟩)
        · exact h (Or.inl rfl)
        · cases h'
        · cases h'
        · cases h'
        · injection h' with h'
          exact hd (inv_eq_zero.1 h'))
      have e : ext a / ext (.num d) = ext a * ext (.num d⁻¹) := by
        show ext a / (d : EReal) = ext a * ((d⁻¹ : ℝ) : EReal)
        rw [EReal.div_eq_inv_mul, mul_comm, EReal.coe_inv]
      rw [e]
      exact h1
  | nan => exact ⟨.nan, by cases a <;> rfl, fun _ => rfl, fun h => absurd (by simp [NoQuotient]) h⟩
  | pinf =>
    cases a with
    | num x => exact ⟨.num 0, rfl, by simp [NoQuotient], fun _ => by simpa [ext] using rounded_zero⟩
    | _ => exact ⟨.nan, rfl, fun _ => rfl, fun h => absurd (by simp [NoQuotient]) h⟩
  | ninf =>
    cases a with
    | num x => exact ⟨.num 0, rfl, by simp [NoQuotient], fun _ => by simpa [ext] using rounded_zero⟩
    | _ => exact ⟨.nan, rfl, fun _ => rfl, fun h => absurd (by simp [NoQuotient]) h⟩

theorem zipLoopI_ok (B : Build) {v1 v2 : List (Dbl ℝ)} (hlen : v2.length = v1.length) {op : Dbl ℝ → Dbl ℝ → Res (Dbl ℝ)} (f : Dbl ℝ → Dbl ℝ → Dbl ℝ)
    (h : ∀ i (h1 : i < v1.length) (h2 : i < v2.length), op v1[i] v2[i] = .ok (f v1[i] v2[i])) :
    zipLoopI B v1 v2 op = .ok (List.zipWith f v1 v2) := by
  unfold zipLoopI
  simp only [cassert_true B _ hlen, Res.ok_bind]
  rw [fill_all (num 0) (fun i => f (v1.getD i (num 0)) (v2.getD i (num 0)))]
  · congr 1
    apply List.ext_getElem
    · simp [hlen]
    · intro i h1 h2
      have : i < v1.length := by simpa using h1
      have h' : i < v2.length := by omega
      simp [this, h']
  · intro i hi out ho
    have h' : i < v2.length := by omega
    rw [vIdx_lt hi, Res.ok_bind, vIdx_lt h', Res.ok_bind, h i hi h', Res.ok_bind]
    simp [hi, h']

theorem zip_get {f : Dbl ℝ → Dbl ℝ → Dbl ℝ} {v w : List (Dbl ℝ)} {i : Nat} {a b c : Dbl ℝ} (ha : v[i]? = some a) (hb : w[i]? = some b) (hc : (List.zipWith f v w)[i]? = some c) :
    c = f a b := by
  rw [List.getElem?_zipWith, ha, hb] at hc
  exact (Option.some.inj hc).symm

/-- **C195**: the element-wise operations on vectors of the same length, for all doubles: each element of the result is the rounded sum, difference, product or quotient on the
extended line, and NaN where there is none. -/
theorem C195_elementwise (hfl : Ieee fl) (B : Build) {v w : List (Dbl ℝ)} (hlen : w.length = v.length) :
    (∃ z, vAddI fl B v w = .ok z ∧ z.length = v.length ∧ ∀ (i : Nat) (a b c : Dbl ℝ), v[i]? = some a → w[i]? = some b → z[i]? = some c →
      (NoSum a b → c = .nan) ∧ (¬ NoSum a b → RoundedTo (ext a + ext b) c)) ∧
    (∃ z, vMinusI fl B v w = .ok z ∧ z.length = v.length ∧ ∀ (i : Nat) (a b c : Dbl ℝ), v[i]? = some a → w[i]? = some b → z[i]? = some c →
      (NoSum a (neg b) → c = .nan) ∧ (¬ NoSum a (neg b) → RoundedTo (ext a - ext b) c)) ∧
    (∃ z, vMultI fl B v w = .ok z ∧ z.length = v.length ∧ ∀ (i : Nat) (a b c : Dbl ℝ), v[i]? = some a → w[i]? = some b → z[i]? = some c →
      (NoProduct a b → c = .nan) ∧ (¬ NoProduct a b → RoundedTo (ext a * ext b) c)) ∧
    ((∀ b ∈ w, b ≠ .num 0) → ∃ z, vDivideI fl B v w = .ok z ∧ z.length = v.length ∧ ∀ (i : Nat) (a b c : Dbl ℝ), v[i]? = some a → w[i]? = some b → z[i]? = some c →
      (NoQuotient a b → c = .nan) ∧
      (¬ NoQuotient a b → RoundedTo (ext a / ext b) c)) := by
  refine ⟨⟨_, zipLoopI_ok B hlen (fadd fl) (fun _ _ _ => rfl), by simp [hlen], ?_⟩, ⟨List.zipWith (fsub fl) v w, ?_, by simp [hlen], ?_⟩,
    ⟨_, zipLoopI_ok B hlen (fmul fl) (fun _ _ _ => rfl), by simp [hlen], ?_⟩, fun hw => ?_⟩
  · intro i a b c ha hb hc
    rw [zip_get ha hb hc]
    exact fadd_rounded hfl a b
  · exact zipLoopI_ok (op := fun a b => .ok (fsub fl a b)) B hlen (fsub fl) (fun _ _ _ => rfl)
  · intro i a b c ha hb hc
    rw [zip_get ha hb hc]
    exact fsub_rounded hfl a b
  · intro i a b c ha hb hc
    rw [zip_get ha hb hc]
    exact fmul_rounded hfl a b
  · classical
    let f : Dbl ℝ → Dbl ℝ → Dbl ℝ := fun a b => if h : b ≠ .num 0 then (fquot_rounded hfl a h).choose else .nan
    have hf : ∀ a b, b ≠ .num 0 → fquot fl a b = .ok (f a b) := fun a b h => by
      simp only [f, dif_pos h]
      exact (fquot_rounded hfl a h).choose_spec.1
    refine ⟨_, zipLoopI_ok B hlen f (fun i h1 h2 => hf _ _ (hw _ (List.getElem_mem h2))), by simp [hlen], ?_⟩
    intro i a b c ha hb hc
    rw [zip_get ha hb hc]
    have h := hw b (List.mem_of_getElem? hb)
    obtain ⟨c', e1, e2⟩ := fquot_rounded hfl a h
    rw [hf a b h] at e1
    injection e1 with e1
    rw [e1]
    exact e2

/-- **C195**: `AddScalar` and `Scale`, for all doubles. -/
theorem C195_scalar (hfl : Ieee fl) (v : List (Dbl ℝ)) (s : Dbl ℝ) :
    (∃ z, vAddScalarI fl v s = .ok z ∧ z.length = v.length ∧ ∀ (i : Nat) (a c : Dbl ℝ), v[i]? = some a → z[i]? = some c →
      (NoSum a s → c = .nan) ∧ (¬ NoSum a s → RoundedTo (ext a + ext s) c)) ∧
    (vScaleI fl v s).length = v.length ∧ ∀ (i : Nat) (a c : Dbl ℝ), v[i]? = some a → (vScaleI fl v s)[i]? = some c →
      (NoProduct a s → c = .nan) ∧ (¬ NoProduct a s → RoundedTo (ext a * ext s) c) := by
  refine ⟨⟨v.map (fun a => fadd fl a s), ?_, by simp, ?_⟩, by simp [vScaleI], ?_⟩
  · unfold vAddScalarI
    refine elementwiseI (fun a => fadd fl a s) ?_
    intro i hi out _
    rw [vIdx_lt hi, Res.ok_bind]
  · intro i a c ha hc
    rw [List.getElem?_map, ha] at hc
    rw [← Option.some.inj hc]
    exact fadd_rounded hfl a s
  · intro i a c ha hc
    rw [vScaleI, List.getElem?_map, ha] at hc
    rw [← Option.some.inj hc]
    exact fmul_rounded hfl a s

/-- **C195**: `Negate` changes the sign of every double exactly, and twice gives the vector back. -/
theorem C195_negate (hfl : Ieee fl) {v : List (Dbl ℝ)} (hv : ∀ d ∈ v, IsDbl d) : vNegateI fl v = v.map neg ∧ vNegateI fl (vNegateI fl v) = v := by
  have key : ∀ v : List (Dbl ℝ), (∀ d ∈ v, IsDbl d) → vNegateI fl v = v.map neg := by
    intro v hv
    unfold vNegateI vScaleI
    refine List.map_congr_left (fun d hd => ?_)
    have c1 : ¬ (0 : ℝ) < -1 := by norm_num
    have c2 : (-1 : ℝ) < 0 := by norm_num
    cases d with
    | num x =>
      have hx : Double64 (-x) := double64_neg (hv _ hd x rfl)
      show ofReal fl (x * -1) = .num (-x)
      rw [mul_neg_one]
      exact ofReal_some (ieee_double hfl hx)
    | pinf => simp [fmul, Dbl.mul, rounded, neg, c1, c2]
    | ninf => simp [fmul, Dbl.mul, rounded, neg, c1, c2]
    | nan => rfl
  refine ⟨key v hv, ?_⟩
  rw [key v hv, key]
  · rw [List.map_map]
    conv_rhs => rw [← List.map_id v]
    refine List.map_congr_left (fun d _ => ?_)
    cases d <;> simp [neg]
  · intro d hd x hx
    obtain ⟨e, he, rfl⟩ := List.mem_map.1 hd
    cases e with
    | num y =>
      injection hx with hx
      rw [← hx]
      exact double64_neg (hv _ he y rfl)
    | _ => cases hx

/-- **C195**: the sum of finite doubles is finite and near the exact sum when the sum of the magnitudes does not nearly overflow: gradual underflow adds no error. -/
theorem C195_sum (hfl : Ieee fl) {v : List ℝ} (hv : ∀ x ∈ v, Double64 x) (ho : (1 + 1 / 2 ^ 53) ^ v.length * (v.map (|·|)).sum < overflow64) :
    ∃ r, vSumI fl (v.map .num) = .num r ∧ Double64 r ∧ |r - v.sum| ≤ ((1 + 1 / 2 ^ 53) ^ v.length - 1) * (v.map (|·|)).sum := by
  have key : ∀ (v : List ℝ) (k : ℕ) (Q P : ℝ) (d : Dbl ℝ), (∀ x ∈ v, Double64 x) → FNear k 0 Q P d → (1 + gam (k + v.length)) * (Q + (v.map (|·|)).sum) < overflow64 →
      FNear (k + v.length) 0 (Q + (v.map (|·|)).sum) (P + v.sum) ((v.map Dbl.num).foldl (fun sum elt => fadd fl sum elt) d) := by
    intro v
    induction v with
    | nil => intro k Q P d _ h _; simpa using h
    | cons x v ih =>
      intro k Q P d hv h ho
      have hs : 0 ≤ (v.map (|·|)).sum := List.sum_nonneg (by
        intro y hy
        obtain ⟨z, -, rfl⟩ := List.mem_map.1 hy
        exact abs_nonneg z)
      have hQ : 0 ≤ Q := by
        obtain ⟨r, -, -, h3⟩ := h
        exact h3.nonneg
      simp only [List.map_cons, List.sum_cons, List.length_cons] at ho ⊢
      have e : k + (v.length + 1) = k + 1 + v.length := by ring
      rw [e] at ho ⊢
      have h1 : FNear (k + 1) (0 + 0) (Q + |x|) (P + x) (fadd fl d (.num x)) := by
        refine FNear.add hfl h ((FNear.exact (hv x (by simp))).upto (Nat.zero_le k)) (lt_of_le_of_lt ?_ ho)
        have g : gam k ≤ gam (k + 1 + v.length) := gam_mono (by omega)
        have g0 := gam_nonneg k
        have hx := abs_nonneg x
        exact mul_le_mul (by linarith only [g]) (by linarith only [hs]) (by linarith only [hQ, hx]) (by linarith only [g, g0])
      rw [add_zero] at h1
      have h2 := ih (k + 1) _ _ _ (fun y hy => hv y (by simp [hy])) h1 (by rw [add_assoc Q]; exact ho)
      rw [add_assoc Q, add_assoc P] at h2
      exact h2
  have h0 : FNear 0 0 0 0 (.num 0) := by simpa using FNear.exact double64_zero
  have hg : ∀ n, gam n = (1 + 1 / 2 ^ 53) ^ n - 1 := fun n => rfl
  obtain ⟨r, h1, h2, h3⟩ := key v 0 0 0 (.num 0) hv h0 (by
    rw [zero_add, zero_add, hg]
    linarith only [ho])
  refine ⟨r, h1, h2, ?_⟩
  have h4 := h3.err
  rw [zero_add, zero_add, zero_add, mul_zero, add_zero, hg] at h4
  exact h4

/-- **C195**: the sum of finite doubles is never NaN, even when a partial sum overflows; a NaN, or two opposite infinities, make the sum NaN. -/
theorem C195_sum_nan (v : List (Dbl ℝ)) :
    ((∀ d ∈ v, ∃ x, d = .num x) → vSumI fl v ≠ .nan) ∧ (.nan ∈ v → vSumI fl v = .nan) ∧ (.pinf ∈ v → .ninf ∈ v → vSumI fl v = .nan) := by
  have hr : ∀ x, ofReal fl x ≠ .nan := by
    intro x
    unfold ofReal
    split
    · simp
    · split <;> simp
  have fin : ∀ (v : List (Dbl ℝ)) (s : Dbl ℝ), (∀ d ∈ v, ∃ x, d = .num x) → s ≠ .nan → v.foldl (fun sum elt => fadd fl sum elt) s ≠ .nan := by
    intro v
    induction v with
    | nil => intro s _ h; exact h
    | cons d v ih =>
      intro s hv hs
      rw [List.foldl_cons]
      refine ih _ (fun e he => hv e (by simp [he])) ?_
      obtain ⟨x, rfl⟩ := hv d (by simp)
      cases s with
      | num y => exact hr _
      | nan => exact absurd rfl hs
      | _ => simp [fadd, Dbl.add, rounded]
  have stay : ∀ (e : Dbl ℝ) (v : List (Dbl ℝ)) (s : Dbl ℝ), (e = .pinf ∨ e = .ninf ∨ e = .nan) → (s = e ∨ s = .nan) →
      (v.foldl (fun sum elt => fadd fl sum elt) s = e ∨ v.foldl (fun sum elt => fadd fl sum elt) s = .nan) := by
    intro e v
    induction v with
    | nil => intro s _ h; exact h
    | cons d v ih =>
      intro s he hs
      rw [List.foldl_cons]
      refine ih _ he ?_
      rcases hs with rfl | rfl
      · rcases he with rfl | rfl | rfl <;> cases d <;> simp [fadd, Dbl.add, rounded]
      · right
        cases d <;> rfl
  have seen : ∀ (e : Dbl ℝ), (e = .pinf ∨ e = .ninf ∨ e = .nan) → e ∈ v → vSumI fl v = e ∨ vSumI fl v = .nan := by
    intro e he hm
    obtain ⟨l1, l2, rfl⟩ := List.append_of_mem hm
    unfold vSumI
    rw [List.foldl_append, List.foldl_cons]
    refine stay e _ _ he ?_
    generalize List.foldl (fun sum elt => fadd fl sum elt) (num 0) l1 = s
    rcases he with rfl | rfl | rfl <;> cases s <;> simp [fadd, Dbl.add, rounded]
  refine ⟨fun h => fin v _ h (by simp), fun h => ?_, fun h1 h2 => ?_⟩
  · rcases seen .nan (by simp) h with h | h <;> exact h
  · rcases seen .pinf (by simp) h1 with h | h
    · rcases seen .ninf (by simp) h2 with h' | h'
      · rw [h] at h'
        cases h'
      · exact h'
    · exact h

/-- **C195**: sums and products do not depend on the order of the arguments, and a vector of finite doubles less itself is zero. -/
theorem C195_symmetric (hfl : Ieee fl) (B : Build) {v w : List (Dbl ℝ)} (hlen : w.length = v.length) :
    vAddI fl B v w = vAddI fl B w v ∧ vMultI fl B v w = vMultI fl B w v ∧
      ((∀ d ∈ v, ∃ x, d = .num x) → vMinusI fl B v v = .ok (List.replicate v.length (.num 0))) := by
  have c1 : ∀ a b : Dbl ℝ, fadd fl a b = fadd fl b a := by
    intro a b
    cases a <;> cases b <;> simp only [fadd, Dbl.add]
    rw [add_comm]
  have c2 : ∀ a b : Dbl ℝ, fmul fl a b = fmul fl b a := by
    intro a b
    cases a <;> cases b <;> simp only [fmul, Dbl.mul]
    rw [mul_comm]
  refine ⟨?_, ?_, fun h => ?_⟩
  · unfold vAddI
    rw [zipLoopI_ok B hlen (fadd fl) (fun _ _ _ => rfl), zipLoopI_ok B hlen.symm (fadd fl) (fun _ _ _ => rfl), List.zipWith_comm_of_comm c1]
  · unfold vMultI
    rw [zipLoopI_ok B hlen (fmul fl) (fun _ _ _ => rfl), zipLoopI_ok B hlen.symm (fmul fl) (fun _ _ _ => rfl), List.zipWith_comm_of_comm c2]
  · have e : vMinusI fl B v v = .ok (List.zipWith (fsub fl) v v) := zipLoopI_ok (op := fun a b => .ok (fsub fl a b)) B rfl (fsub fl) (fun _ _ _ => rfl)
    rw [e]
    congr 1
    refine List.eq_replicate_iff.2 ⟨by simp, fun d hd => ?_⟩
    rw [List.zipWith_self] at hd
    obtain ⟨a, ha, rfl⟩ := List.mem_map.1 hd
    obtain ⟨x, rfl⟩ := h a ha
    show ofReal fl (x + -x) = .num 0
    rw [add_neg_cancel]
    exact ofReal_some (ieee_double hfl double64_zero)

/-- **C195**: the sum is not associative: with the largest finite double `m` the sum of `m, m, -m` overflows and of `m, -m, m` does not. -/
theorem C195_order (hfl : Ieee fl) : ∃ m : ℝ, Double64 m ∧ 0 < m ∧ vSumI fl [.num m, .num m, .num (-m)] = .pinf ∧ vSumI fl [.num m, .num (-m), .num m] = .num m := by
  have hm : Double64 ((2 ^ 53 - 1 : ℤ) * (2 : ℝ) ^ (971 : ℤ)) := ⟨2 ^ 53 - 1, 971, by norm_num, by norm_num, by norm_num, rfl⟩
  have hbig : overflow64 ≤ ((2 ^ 53 - 1 : ℤ) * (2 : ℝ) ^ (971 : ℤ)) + ((2 ^ 53 - 1 : ℤ) * (2 : ℝ) ^ (971 : ℤ)) := by
    rw [overflow64_eq]
    have : (2 : ℝ) ^ (971 : ℤ) = 2 * 2 ^ (970 : ℤ) := by
      rw [show (971 : ℤ) = 1 + 970 by norm_num, zpow_add₀ (by norm_num)]
      norm_num
    rw [this]
    have hp : (0 : ℝ) < 2 ^ (970 : ℤ) := zpow_pos (by norm_num) _
    generalize (2 : ℝ) ^ (970 : ℤ) = t at hp
    push_cast
    nlinarith only [hp]
  have hpos : (0 : ℝ) < (2 ^ 53 - 1 : ℤ) * (2 : ℝ) ^ (971 : ℤ) := by
    have hp : (0 : ℝ) < 2 ^ (971 : ℤ) := zpow_pos (by norm_num) _
    refine mul_pos ?_ hp
    norm_num
  generalize ((2 ^ 53 - 1 : ℤ) * (2 : ℝ) ^ (971 : ℤ) : ℝ) = m at *
  have f1 : fadd fl (.num 0) (.num m) = .num m := by
    show ofReal fl (0 + m) = .num m
    rw [zero_add]
    exact ofReal_some (ieee_double hfl hm)
  have f2 : fadd fl (.num m) (.num m) = .pinf := ofReal_pinf hfl hbig
  have f3 : fadd fl (.num m) (.num (-m)) = .num 0 := by
    show ofReal fl (m + -m) = .num 0
    rw [add_neg_cancel]
    exact ofReal_some (ieee_double hfl double64_zero)
  refine ⟨m, hm, hpos, ?_, ?_⟩
  · simp only [vSumI, List.foldl_cons, List.foldl_nil, f1, f2]
    rfl
  · simp only [vSumI, List.foldl_cons, List.foldl_nil, f1, f3]

/-- Non-vacuity: an infinity in one vector, a zero and a finite double in the other; and a sum of three doubles. -/
example : ([.num 0, .num 2] : List (Dbl ℝ)).length = ([.pinf, .num 3] : List (Dbl ℝ)).length ∧ NoProduct (.pinf : Dbl ℝ) (.num 0) ∧ ¬ NoSum (.pinf : Dbl ℝ) (.num 0) ∧
    ¬ NoProduct (.num 3) (.num 2 : Dbl ℝ) ∧ IsDbl (.num 3) ∧ IsDbl .nan :=
  ⟨rfl, by simp [NoProduct], by simp [NoSum], by simp [NoProduct], fun x h => by
    injection h with h
    rw [← h]
    exact_mod_cast double64_int 3 (by norm_num), fun x h => by cases h⟩

example : ∃ r, vSumI fl64 ([1, 2, 3].map .num) = .num r ∧ Double64 r ∧ |r - [1, 2, 3].sum| ≤ ((1 + 1 / 2 ^ 53) ^ 3 - 1) * (([1, 2, 3] : List ℝ).map (|·|)).sum := by
  refine C195_sum fl64_ieee (v := [1, 2, 3]) ?_ ?_
  · intro x hx
    simp only [List.mem_cons, List.not_mem_nil, or_false] at hx
    rcases hx with rfl | rfl | rfl
    · exact_mod_cast double64_int 1 (by norm_num)
    · exact_mod_cast double64_int 2 (by norm_num)
    · exact_mod_cast double64_int 3 (by norm_num)
  · have h : (2 : ℝ) ^ (100 : ℤ) < overflow64 := by
      have := double64_le (double64_pow (e := 100) (by norm_num) (by norm_num))
      rwa [abs_of_pos (zpow_pos (by norm_num) _)] at this
    refine lt_of_le_of_lt ?_ h
    norm_num [abs_of_pos]

end MU
