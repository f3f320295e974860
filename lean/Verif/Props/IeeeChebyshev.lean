import Verif.Model.IeeeChebyshev
import Verif.Lemmas.IeeeNear
import Verif.Props.RoundedChebyshev

/-!
# C190: Chebyshev series in binary64, with overflow and underflow

The coordinate and the sums of the recurrence are finite unless the coefficients are very large or the domain is very wide or very narrow; then the errors are those of C132, with one
smallest positive number more for each coefficient.
-/

set_option linter.unusedSectionVars false

namespace MU.Spec

/-- The bounds of the domain are finite numbers of binary64. -/
def Domain.Finite64 : Domain ℝ → Prop
  | .segment a b => Double64 a ∧ Double64 b
  | .halfLine a => Double64 a

/-- The bounds of a segment, its width and their ratio are away from the ends of the range. No condition on a half line. -/
def Domain.Scaled : Domain ℝ → Prop
  | .segment a b => max |a| |b| ≤ 2 ^ 1000 ∧ 1 ≤ 2 ^ 1000 * (b - a) ∧ max |a| |b| ≤ 2 ^ 1000 * (b - a)
  | .halfLine _ => True

end MU.Spec

namespace MU
open Spec Finset Polynomial Dbl

variable {fl : ℝ → Option ℝ}

theorem FNear.double (h : Ieee fl) {x : ℝ} (hx : Double64 x) (ho : |2 * x| < overflow64) : FNear 1 0 (2 * |x|) (2 * x) (fmul fl (num 2) (num x)) := by
  have hm : ∃ n : ℤ, 2 * x = n * (2 : ℝ) ^ (-1074 : ℤ) := by
    rw [two_mul]
    exact multiple_add (double64_multiple hx) (double64_multiple hx)
  obtain ⟨ε, h1, h2⟩ := ieee_err_multiple h ho hm
  obtain ⟨z, h3, h4, -⟩ := (h _).1 ho
  have hz : z = 2 * x * (1 + ε) := by
    rw [h2] at h3
    exact (Option.some.inj h3).symm
  have hn := (NearA.exact (2 * x)).round h1 (η := 0) (t := 0) (by simp)
  rw [add_zero, add_zero, zero_add, abs_mul, abs_two] at hn
  exact ⟨_, ofReal_some h2, hz ▸ h4, hn⟩

theorem FNear.double' (h : Ieee fl) {x : ℝ} (hx : Double64 x) (ho : |2 * x| < overflow64) : FNear 1 0 (2 * |x|) (2 * x) (fmul fl (num x) (num 2)) := by
  have e : fmul fl (num x) (num 2) = fmul fl (num 2) (num x) := by
    show Dbl.rounded fl (num (x * 2)) = Dbl.rounded fl (num (2 * x))
    rw [mul_comm]
  rw [e]
  exact FNear.double h hx ho

theorem tiny_le_cent : tiny ≤ 1 / 100 := by
  unfold tiny
  have h : (2 : ℝ) ^ (-1075 : ℤ) ≤ (2 : ℝ) ^ (-7 : ℤ) := zpow_le_zpow_right₀ (by norm_num) (by norm_num)
  refine h.trans ?_
  norm_num

theorem gam4_cent : gam 4 ≤ 1 / 100 := by
  refine (gam_le (by norm_num)).trans ?_
  unfold uround
  norm_num

/-- One step of the recurrence. -/
theorem stepI_near (hfl : Ieee fl) {t τ η : ℝ} (ht : |t| ≤ 1) (hτ : |τ - t| ≤ η) (dτ : Double64 τ) {b1 b2 c M K : ℝ} (d1 : Double64 b1) (d2 : Double64 b2) (dc : Double64 c)
    (h1 : |b1| ≤ M) (h2 : |b2| ≤ M) (hM : (1 + η) * M ≤ K) (hη1 : 1 + η ≤ K) (ho : 6 * K + 2 * |c| + 2 < overflow64) :
    ∃ r, fadd fl (fsub fl (fmul fl (fmul fl (num 2) (num τ)) (num b1)) (num b2)) (num c) = num r ∧ Double64 r ∧
      |r - (2 * t * b1 - b2 + c)| ≤ stepErr η * M + gam 4 * |c| + 4 * tiny := by
  have hM0 : 0 ≤ M := (abs_nonneg _).trans h1
  have hη : 0 ≤ η := (abs_nonneg _).trans hτ
  have hc := abs_nonneg c
  have hb1 := abs_nonneg b1
  have hb2 := abs_nonneg b2
  have hτ1 : |τ| ≤ 1 + η := by
    have := abs_add_le (τ - t) t
    rw [sub_add_cancel] at this
    linarith
  have hτ0 := abs_nonneg τ
  have hMK : M ≤ K := le_trans (by nlinarith) hM
  have hτb : |τ| * |b1| ≤ K := (mul_le_mul hτ1 h1 hb1 (by linarith)).trans hM
  have hτb0 : 0 ≤ |τ| * |b1| := mul_nonneg hτ0 hb1
  have g : ∀ {k : ℕ} {Q : ℝ}, k ≤ 4 → 0 ≤ Q → (1 + gam k) * Q ≤ 2 * Q := fun hk hQ =>
    mul_le_mul_of_nonneg_right (by have := gam_le_one (k := _) (hk.trans (by norm_num)); linarith) hQ
  have t0 := tiny_pos
  have t1 := tiny_le_cent
  have e1 := FNear.double hfl dτ (by rw [abs_mul, abs_two]; linarith)
  have e2 := e1.mul hfl (FNear.exact d1) (by
    refine (g (by norm_num) (by positivity)).trans_lt ?_
    rw [add_zero, add_zero]
    linarith)
  have e3 := e2.sub hfl ((FNear.exact d2).upto (Nat.zero_le _)) (by
    refine (g (by norm_num) (by positivity)).trans_lt ?_
    simp only [zero_mul, mul_zero, add_zero, zero_add]
    linarith)
  obtain ⟨r, r1, r2, r3⟩ := e3.add hfl ((FNear.exact dc).upto (Nat.zero_le _)) (by
    refine (g (by norm_num) (by positivity)).trans_lt ?_
    simp only [zero_mul, mul_zero, add_zero, zero_add]
    linarith)
  refine ⟨r, r1, r2, ?_⟩
  have he := r3.err
  simp only [zero_mul, mul_zero, add_zero, zero_add] at he
  norm_num at he
  have f1 : |2 * τ * b1 - b2 + c - (2 * t * b1 - b2 + c)| ≤ 2 * η * M := by
    rw [show 2 * τ * b1 - b2 + c - (2 * t * b1 - b2 + c) = 2 * (τ - t) * b1 by ring, abs_mul, abs_mul, abs_two]
    have := mul_le_mul hτ h1 (abs_nonneg _) hη
    linarith
  have f2 := abs_sub_le r (2 * τ * b1 - b2 + c) (2 * t * b1 - b2 + c)
  have f3 : |τ| * |b1| ≤ (1 + η) * M := mul_le_mul hτ1 h1 hb1 (by linarith)
  have f4 : gam 4 * (2 * |τ| * |b1| + |b2| + |c|) ≤ gam 4 * (2 * (1 + η) * M + M + |c|) :=
    mul_le_mul_of_nonneg_left (by linarith) (gam_nonneg 4)
  have f5 : (1 + gam 4) * tiny ≤ 4 * tiny := mul_le_mul_of_nonneg_right (by linarith [gam4_cent]) t0.le
  unfold stepErr
  linarith

/-- The last line. -/
theorem lastI_near (hfl : Ieee fl) {t τ η : ℝ} (ht : |t| ≤ 1) (hτ : |τ - t| ≤ η) (dτ : Double64 τ) {b1 b2 a M K : ℝ} (d1 : Double64 b1) (d2 : Double64 b2) (da : Double64 a)
    (h1 : |b1| ≤ M) (h2 : |b2| ≤ M) (hM : (1 + η) * M ≤ K) (ho : 6 * K + 2 * |a| + 2 < overflow64) :
    ∃ r, fadd fl (fsub fl (fmul fl (num τ) (num b1)) (num b2)) (fmul fl (num (1 / 2)) (fmul fl (num a) (num 2))) = num r ∧ Double64 r ∧
      |r - (t * b1 - b2 + a)| ≤ stepErr η * M + gam 4 * |a| + 4 * tiny := by
  have hM0 : 0 ≤ M := (abs_nonneg _).trans h1
  have hη : 0 ≤ η := (abs_nonneg _).trans hτ
  have hc := abs_nonneg a
  have hb1 := abs_nonneg b1
  have hb2 := abs_nonneg b2
  have hτ1 : |τ| ≤ 1 + η := by
    have := abs_add_le (τ - t) t
    rw [sub_add_cancel] at this
    linarith
  have hτ0 := abs_nonneg τ
  have hMK : M ≤ K := le_trans (by nlinarith) hM
  have hτb : |τ| * |b1| ≤ K := (mul_le_mul hτ1 h1 hb1 (by linarith)).trans hM
  have hτb0 : 0 ≤ |τ| * |b1| := mul_nonneg hτ0 hb1
  have hh : |(1 / 2 : ℝ)| = 1 / 2 := by norm_num
  have g : ∀ {k : ℕ} {Q : ℝ}, k ≤ 4 → 0 ≤ Q → (1 + gam k) * Q ≤ 2 * Q := fun hk hQ =>
    mul_le_mul_of_nonneg_right (by have := gam_le_one (k := _) (hk.trans (by norm_num)); linarith) hQ
  have t0 := tiny_pos
  have t1 := tiny_le_cent
  have dh : Double64 (1 / 2 : ℝ) := by
    have := double64_pow (e := -1) (by norm_num) (by norm_num)
    norm_num at this ⊢
    exact this
  have e1 := (FNear.exact dτ).mul hfl (FNear.exact d1) (by
    refine (g (by norm_num) (by positivity)).trans_lt ?_
    rw [add_zero, add_zero]
    linarith)
  have e2 := e1.sub hfl ((FNear.exact d2).upto (Nat.zero_le _)) (by
    refine (g (by norm_num) (by positivity)).trans_lt ?_
    simp only [zero_mul, mul_zero, add_zero, zero_add]
    linarith)
  have e3 := (FNear.exact dh).mul hfl (FNear.double' hfl da (by rw [abs_mul, abs_two]; linarith)) (by
    refine (g (by norm_num) (by positivity)).trans_lt ?_
    rw [add_zero, add_zero, hh]
    linarith)
  obtain ⟨r, r1, r2, r3⟩ := (e2.upto (l := 2) (by norm_num)).add hfl (e3.upto (l := 2) (by norm_num)) (by
    refine (g (by norm_num) (by positivity)).trans_lt ?_
    simp only [zero_mul, mul_zero, add_zero, zero_add, hh]
    linarith)
  refine ⟨r, r1, r2, ?_⟩
  have he := (r3.upto (l := 4) (by norm_num)).err
  simp only [zero_mul, mul_zero, add_zero, zero_add, hh] at he
  rw [show τ * b1 - b2 + 1 / 2 * (2 * a) = τ * b1 - b2 + a by ring, show 1 / 2 * (2 * |a|) = |a| by ring] at he
  have f1 : |τ * b1 - b2 + a - (t * b1 - b2 + a)| ≤ η * M := by
    rw [show τ * b1 - b2 + a - (t * b1 - b2 + a) = (τ - t) * b1 by ring, abs_mul]
    exact mul_le_mul hτ h1 (abs_nonneg _) hη
  have f2 := abs_sub_le r (τ * b1 - b2 + a) (t * b1 - b2 + a)
  have f3 : |τ| * |b1| ≤ (1 + η) * M := mul_le_mul hτ1 h1 hb1 (by linarith)
  have f4 : gam 4 * (|τ| * |b1| + |b2| + |a|) ≤ gam 4 * ((1 + η) * M + M + |a|) :=
    mul_le_mul_of_nonneg_left (by linarith) (gam_nonneg 4)
  have f5 : (1 + gam 4) * (tiny + tiny) ≤ 4 * tiny := by
    have := mul_le_mul_of_nonneg_right (show 1 + gam 4 ≤ 2 by linarith [gam4_cent]) t0.le
    linarith
  have h5 := mul_nonneg hη hM0
  have h6 := mul_nonneg (gam_nonneg 4) hM0
  have h7 := mul_nonneg (gam_nonneg 4) h5
  unfold stepErr
  linarith

/-- The loop is the exact loop for coefficients close to those given. -/
theorem loopI_near (hfl : Ieee fl) {t τ η : ℝ} (ht : |t| ≤ 1) (hτ : |τ - t| ≤ η) (dτ : Double64 τ) {N : ℕ} {S K : ℝ}
    (hK : N * ((1 + N * stepErr η) ^ N * (S + N * (4 * tiny))) ≤ K) (hK1 : 1 + η ≤ K) (ho : 6 * K + 2 * S + 2 < overflow64) :
    ∀ l : List ℝ, l.length + 1 ≤ N → (∀ c ∈ l, Double64 c) → absSum l ≤ S →
    ∃ l' : List ℝ, l'.length = l.length ∧ clenshawLoopI fl (num τ) (l.map num) =
        (num (l'.foldr (clenshawStep t) (0, 0)).1, num (l'.foldr (clenshawStep t) (0, 0)).2) ∧
      Double64 (l'.foldr (clenshawStep t) (0, 0)).1 ∧ Double64 (l'.foldr (clenshawStep t) (0, 0)).2 ∧
      distSum l l' ≤ ((1 + N * stepErr η) ^ l.length - 1) * absSum l + (1 + N * stepErr η) ^ l.length * (l.length * (4 * tiny))
  | [], _, _, _ => ⟨[], rfl, rfl, double64_zero, double64_zero, by simp [distSum]⟩
  | [c], h, hd, hS => by
    refine ⟨[c], rfl, by simp [clenshawLoopI, clenshawStep], ?_, ?_, ?_⟩
    · simpa [clenshawStep] using hd c (by simp)
    · simpa [clenshawStep] using double64_zero
    have hη : 0 ≤ η := (abs_nonneg _).trans hτ
    have : distSum [c] [c] = 0 := by simp [distSum]
    rw [this]
    have h1 := stepErr_nonneg hη
    have h2 := absSum_nonneg [c]
    have h3 := tiny_pos.le
    simp only [List.length_singleton, pow_one, add_sub_cancel_left]
    refine add_nonneg (mul_nonneg (by positivity) h2) (mul_nonneg (by positivity) (mul_nonneg (by positivity) (by linarith)))
  | c :: d :: rest, h, hd, hS => by
    have hη : 0 ≤ η := (abs_nonneg _).trans hτ
    have hρ := stepErr_nonneg hη
    have t0 := tiny_pos.le
    have hSl : absSum (d :: rest) ≤ S := by
      rw [absSum_cons] at hS
      linarith [abs_nonneg c]
    have hcS : |c| ≤ S := by
      rw [absSum_cons] at hS
      linarith [absSum_nonneg (d :: rest)]
    obtain ⟨l', h1, h2, h2a, h2b, h3⟩ := loopI_near hfl ht hτ dτ hK hK1 ho (d :: rest) (by simp only [List.length_cons] at h ⊢; omega)
      (fun x hx => hd x (List.mem_cons_of_mem _ hx)) hSl
    set l := d :: rest with hl
    set b := l'.foldr (clenshawStep t) (0, 0) with hb
    have hS0 := absSum_nonneg l
    set G := 1 + N * stepErr η with hG
    set θ := 4 * tiny with hθ
    have hθ0 : 0 ≤ θ := by rw [hθ]; linarith
    have hlenN : l.length + 2 ≤ N := by simp only [List.length_cons] at h ⊢; omega
    have hNρ : 0 ≤ N * stepErr η := by positivity
    have hG1 : 1 ≤ G := by rw [hG]; linarith
    have hN : (1 : ℝ) ≤ N := by exact_mod_cast (by omega : 1 ≤ N)
    have hρG : 1 + stepErr η ≤ G := by
      rw [hG]
      nlinarith
    have hS' : absSum l' ≤ G ^ l.length * (absSum l + l.length * θ) := by
      have := absSum_le l l' h1
      linarith
    have hlen : (l'.length : ℝ) ≤ N := by
      rw [h1]
      exact_mod_cast (by omega : l.length ≤ N)
    have hT0 : 0 ≤ absSum l + l.length * θ := by positivity
    have hM : (l'.length : ℝ) * absSum l' ≤ N * (G ^ l.length * (absSum l + l.length * θ)) :=
      mul_le_mul hlen hS' (absSum_nonneg _) (by positivity)
    have hηG : 1 + η ≤ G := by
      have : η ≤ stepErr η := by
        have := gam_nonneg 4
        unfold stepErr
        nlinarith
      linarith
    have hMK : (1 + η) * (N * (G ^ l.length * (absSum l + l.length * θ))) ≤ K := by
      refine le_trans ?_ hK
      have hp : G * G ^ l.length ≤ G ^ N := by
        rw [← pow_succ']
        exact pow_le_pow_right₀ hG1 (by omega)
      have hT : absSum l + l.length * θ ≤ S + N * θ := by
        have : (l.length : ℝ) ≤ N := by exact_mod_cast (by omega : l.length ≤ N)
        have := mul_le_mul_of_nonneg_right this hθ0
        linarith
      calc (1 + η) * (N * (G ^ l.length * (absSum l + l.length * θ))) ≤ G * (N * (G ^ l.length * (absSum l + l.length * θ))) :=
            mul_le_mul_of_nonneg_right hηG (by positivity)
        _ = N * (G * G ^ l.length * (absSum l + l.length * θ)) := by ring
        _ ≤ N * (G ^ N * (S + N * θ)) := by gcongr
    obtain ⟨r, r1, r2, r3⟩ := stepI_near hfl ht hτ dτ h2a h2b (hd c (by simp)) ((fold_fst_le ht l').trans hM) ((fold_snd_le ht l').trans hM) hMK hK1 (by linarith)
    refine ⟨(r - (2 * t * b.1 - b.2)) :: l', by rw [List.length_cons, h1]; rfl, ?_, ?_, ?_, ?_⟩
    · rw [List.map_cons, hl, List.map_cons, clenshawLoopI, ← List.map_cons, ← hl, h2, List.foldr_cons, ← hb, clenshawStep]
      simp only [r1]
      congr 2
      ring
    · rw [List.foldr_cons, ← hb, clenshawStep]
      simpa using r2
    · rw [List.foldr_cons, ← hb, clenshawStep]
      exact h2a
    · rw [distSum_cons, absSum_cons, List.length_cons]
      have hs' : |r - (2 * t * b.1 - b.2) - c| ≤ stepErr η * (N * (G ^ l.length * (absSum l + l.length * θ))) + gam 4 * |c| + θ := by
        rw [show r - (2 * t * b.1 - b.2) - c = r - (2 * t * b.1 - b.2 + c) by ring]
        exact r3
      have hg : gam 4 ≤ N * stepErr η := by
        have := gam_le_stepErr hη
        nlinarith
      have h1p : 1 ≤ G ^ l.length := one_le_pow₀ hG1
      have hgc : gam 4 * |c| ≤ (G ^ (l.length + 1) - 1) * |c| := by
        refine mul_le_mul_of_nonneg_right ?_ (abs_nonneg _)
        rw [pow_succ, hG] at *
        nlinarith
      have hgθ : θ ≤ G ^ (l.length + 1) * θ := le_mul_of_one_le_left hθ0 (one_le_pow₀ hG1)
      have e1 : stepErr η * (N * (G ^ l.length * (absSum l + l.length * θ))) = (G ^ (l.length + 1) - G ^ l.length) * (absSum l + l.length * θ) := by
        rw [pow_succ, hG]
        ring
      rw [e1] at hs'
      push_cast
      linarith


/-- `chebyshev_clenshaw_recurrence` in binary64. -/
theorem clenshawI_near (hfl : Ieee fl) {t τ η : ℝ} (ht : |t| ≤ 1) (hτ : |τ - t| ≤ η) (dτ : Double64 τ) {S K : ℝ} {a : ℝ} {l : List ℝ} (da : Double64 a)
    (dl : ∀ c ∈ l, Double64 c) (hS : absSum (a :: l) ≤ S)
    (hK : (l.length + 1 : ℕ) * ((1 + growth (l.length + 1) η) * (S + (l.length + 1 : ℕ) * (4 * tiny))) ≤ K) (hK1 : 1 + η ≤ K)
    (ho : 6 * K + 2 * S + 2 < overflow64) :
    ∃ v, clenshawI fl (fmul fl (num a) (num 2) :: l.map num) (num τ) = .ok (num v) ∧ Double64 v ∧
      |v - ∑ i ∈ range (l.length + 1), (a :: l).getD i 0 * chebT i t|
        ≤ growth (l.length + 1) η * absSum (a :: l) + (1 + growth (l.length + 1) η) * ((l.length + 1 : ℕ) * (4 * tiny)) := by
  have hη : 0 ≤ η := (abs_nonneg _).trans hτ
  have hρ := stepErr_nonneg hη
  have t0 := tiny_pos
  have haS : |a| ≤ S := by
    rw [absSum_cons] at hS
    linarith [absSum_nonneg l]
  have ha0 := abs_nonneg a
  have hgr := growth_nonneg (l.length + 1) hη
  have hSθ : 0 ≤ S + (l.length + 1 : ℕ) * (4 * tiny) := add_nonneg (ha0.trans haS) (by positivity)
  have hK0 : 0 ≤ K := le_trans (by positivity) hK1
  cases l with
  | nil =>
    obtain ⟨r, r1, r2, r3⟩ := FNear.double' hfl da (by rw [abs_mul, abs_two]; linarith)
    have hr := r3.abs_le
    have hg := gam_le_one (k := 1) (by norm_num)
    have hr2 : |r| ≤ 4 * |a| := hr.trans (by rw [add_zero]; nlinarith)
    have hg1 : gam 1 = uround := gam_one
    have hu : uround ≤ 1 / 100 := by unfold uround; norm_num
    have hu0 := uround_nonneg
    have her := r3.err
    rw [hg1, mul_zero, add_zero] at her
    have hr3 : |r| ≤ 3 * |a| := by
      have := abs_add_le (r - 2 * a) (2 * a)
      rw [sub_add_cancel, abs_mul, abs_two] at this
      nlinarith
    have hro : |r * 2⁻¹| < overflow64 := by
      rw [abs_mul, show |(2⁻¹ : ℝ)| = 1 / 2 by norm_num]
      linarith
    obtain ⟨ε, δ, e1, e2, e3, e4⟩ := fquot_ok hfl (x := r) (d := 2) (by norm_num) hro
    refine ⟨_, by rw [List.map_nil, clenshawI, r1]; exact e4, e3, ?_⟩
    have hn := (r3.mul (NearA.exact (2⁻¹ : ℝ))).round e1 e2
    have he := (hn.upto (l := 4) (by norm_num)).err
    rw [show |(2⁻¹ : ℝ)| = 2⁻¹ by norm_num, show 2 * |a| * 2⁻¹ = |a| by ring, show 2 * a * 2⁻¹ = a by ring] at he
    simp only [zero_mul, mul_zero, add_zero, zero_add] at he
    have h1 : gam 4 ≤ growth 1 η := by
      unfold growth
      rw [pow_one, Nat.cast_one, one_mul, add_sub_cancel_left]
      exact gam_le_stepErr hη
    have h2 := mul_le_mul_of_nonneg_right h1 ha0
    have h3 : (1 + gam 4) * tiny ≤ (1 + growth 1 η) * (4 * tiny) := mul_le_mul (by linarith) (by linarith) t0.le (by linarith [gam_nonneg 4])
    simp only [absSum, List.length_cons, List.length_nil, zero_add, sum_range_one, List.getD_cons_zero, chebT, mul_one, Nat.cast_one, one_mul]
    linarith
  | cons d rest =>
    set l := d :: rest with hl
    set N : ℕ := l.length + 1 with hN
    have hSl : absSum l ≤ S := by
      rw [absSum_cons] at hS
      linarith [abs_nonneg a]
    have hgG : 1 + growth N η = (1 + N * stepErr η) ^ N := by
      unfold growth
      ring
    rw [hgG] at hK
    obtain ⟨l', h1, h2, h2a, h2b, h3⟩ := loopI_near hfl ht hτ dτ hK hK1 ho l le_rfl dl hSl
    set b := l'.foldr (clenshawStep t) (0, 0) with hb
    set G := 1 + N * stepErr η with hG
    set θ := 4 * tiny with hθ
    have hθ0 : 0 ≤ θ := by rw [hθ]; linarith
    have hS0 := absSum_nonneg l
    have hNρ : 0 ≤ N * stepErr η := by positivity
    have hG1 : 1 ≤ G := by rw [hG]; linarith
    have hN1 : (1 : ℝ) ≤ N := by exact_mod_cast (by omega : 1 ≤ N)
    have hρG : 1 + stepErr η ≤ G := by
      rw [hG]
      nlinarith
    have hS' : absSum l' ≤ G ^ l.length * (absSum l + l.length * θ) := by
      have := absSum_le l l' h1
      linarith
    have hlN : (l.length : ℝ) ≤ N := by exact_mod_cast (by omega : l.length ≤ N)
    have hlen : (l'.length : ℝ) ≤ N := by rw [h1]; exact hlN
    have hT0 : 0 ≤ absSum l + l.length * θ := by positivity
    have hM : (l'.length : ℝ) * absSum l' ≤ N * (G ^ l.length * (absSum l + l.length * θ)) :=
      mul_le_mul hlen hS' (absSum_nonneg _) (by positivity)
    have hηG : 1 + η ≤ G := by
      have : η ≤ stepErr η := by
        have := gam_nonneg 4
        unfold stepErr
        nlinarith
      linarith
    have hMK : (1 + η) * (N * (G ^ l.length * (absSum l + l.length * θ))) ≤ K := by
      refine le_trans ?_ hK
      have hp : G * G ^ l.length = G ^ N := by rw [← pow_succ', ← hN]
      have hT : absSum l + l.length * θ ≤ S + N * θ := by
        have := mul_le_mul_of_nonneg_right hlN hθ0
        linarith
      calc (1 + η) * (N * (G ^ l.length * (absSum l + l.length * θ))) ≤ G * (N * (G ^ l.length * (absSum l + l.length * θ))) :=
            mul_le_mul_of_nonneg_right hηG (by positivity)
        _ = N * (G ^ N * (absSum l + l.length * θ)) := by rw [← hp]; ring
        _ ≤ N * (G ^ N * (S + N * θ)) := by gcongr
    obtain ⟨r, r1, r2, r3⟩ := lastI_near hfl ht hτ dτ h2a h2b da ((fold_fst_le ht l').trans hM) ((fold_snd_le ht l').trans hM) hMK (by linarith)
    refine ⟨r, ?_, r2, ?_⟩
    · rw [hl, List.map_cons, clenshawI, ← List.map_cons, ← hl, h2]
      simp only [r1]
    -- the exact sum for the other coefficients
    have hex : r = ∑ i ∈ range N, ((r - (t * b.1 - b.2)) :: l').getD i 0 * chebT i t := by
      have := clenshaw_fold t l' 0
      simp only [chebT, Nat.zero_add, ← hb, h1] at this
      rw [hN, sum_range_succ', List.getD_cons_zero]
      simp only [List.getD_cons_succ, chebT]
      rw [sum_congr rfl (fun i _ => by rw [Nat.add_comm i 1]), this]
      ring
    have hdist : |r - ∑ i ∈ range N, (a :: l).getD i 0 * chebT i t| ≤ distSum (a :: l) ((r - (t * b.1 - b.2)) :: l') := by
      have : r - ∑ i ∈ range N, (a :: l).getD i 0 * chebT i t =
          ∑ i ∈ range N, (((r - (t * b.1 - b.2)) :: l').getD i 0 - (a :: l).getD i 0) * chebT i t := by
        rw [sum_congr rfl (fun i _ => sub_mul _ _ _), sum_sub_distrib, ← hex]
      rw [this]
      refine (abs_sum_le_sum_abs _ _).trans (sum_le_sum fun i _ => ?_)
      rw [abs_mul]
      exact mul_le_of_le_one_right (abs_nonneg _) (abs_chebT_le i ht)
    refine hdist.trans ?_
    rw [distSum_cons, absSum_cons, hgG, show growth N η = G ^ N - 1 from rfl]
    have hs' : |r - (t * b.1 - b.2) - a| ≤ stepErr η * (N * (G ^ l.length * (absSum l + l.length * θ))) + gam 4 * |a| + θ := by
      rw [show r - (t * b.1 - b.2) - a = r - (t * b.1 - b.2 + a) by ring]
      exact r3
    have hg : gam 4 ≤ N * stepErr η := by
      have := gam_le_stepErr hη
      nlinarith
    have h1p : 1 ≤ G ^ l.length := one_le_pow₀ hG1
    have hgc : gam 4 * |a| ≤ (G ^ N - 1) * |a| := by
      refine mul_le_mul_of_nonneg_right ?_ (abs_nonneg _)
      rw [hN, pow_succ]
      have : G ^ l.length * G ≥ 1 * G := mul_le_mul_of_nonneg_right h1p (by linarith)
      linarith
    have hgθ : θ ≤ G ^ N * θ := le_mul_of_one_le_left hθ0 (one_le_pow₀ hG1)
    have e1 : stepErr η * (N * (G ^ l.length * (absSum l + l.length * θ))) = (G ^ N - G ^ l.length) * (absSum l + l.length * θ) := by
      rw [hN, pow_succ, ← hN, hG]
      ring
    rw [e1] at hs'
    have hNc : (N : ℝ) = l.length + 1 := by rw [hN]; push_cast; ring
    rw [hNc]
    linarith

/-- Twelve times this is below the overflow. -/
theorem pow1020_lt {K : ℝ} (h : K ≤ 2 ^ 1020) : 12 * K < overflow64 := by
  have h2 : (2 : ℝ) ^ 1024 = 16 * 2 ^ 1020 := by rw [show (1024 : ℕ) = 4 + 1020 by norm_num, pow_add]; norm_num
  have h3 : (2 : ℝ) ^ 970 < 2 ^ 1020 := pow_lt_pow_right₀ (by norm_num) (by norm_num)
  have h4 : (0 : ℝ) < 2 ^ 1020 := by positivity
  unfold overflow64
  rw [h2]
  clear h2
  generalize (2 : ℝ) ^ 1020 = a at *
  generalize (2 : ℝ) ^ 970 = b at *
  linarith only [h, h3, h4]

theorem pow1020_tiny {N : ℝ} (h : N ≤ 2 ^ 1020) : N * (4 * tiny) ≤ 1 := by
  have h0 : (0 : ℝ) ≤ 4 * tiny := by have := tiny_pos; linarith
  refine (mul_le_mul_of_nonneg_right h h0).trans ?_
  unfold tiny
  rw [← zpow_natCast, show (4 : ℝ) = 2 ^ (2 : ℤ) by norm_num, ← zpow_add₀ (by norm_num), ← zpow_add₀ (by norm_num)]
  exact zpow_le_one_of_nonpos₀ (by norm_num) (by norm_num)

/-- The same for coefficients given by a function, with one condition on the size. -/
theorem clenshawI_map (hfl : Ieee fl) {t τ η : ℝ} (ht : |t| ≤ 1) (hτ : |τ - t| ≤ η) (dτ : Double64 τ) {n : Nat} {a : Nat → ℝ} (da : ∀ i, i < n + 1 → Double64 (a i)) {E : ℝ}
    (hE : growth (n + 1) η ≤ E) (hsz : (n + 1) * (1 + E) * (1 + ∑ i ∈ range (n + 1), |a i|) ≤ 2 ^ 1020) :
    ∃ v, (doubleHeadI fl ((List.range (n + 1)).map (fun i => num (a i))) >>= fun l => clenshawI fl l (num τ)) = .ok (num v) ∧ Double64 v ∧
      |v - cheb1 n a t| ≤ E * ∑ i ∈ range (n + 1), |a i| + (1 + E) * ((n + 1) * (4 * tiny)) := by
  have hη : 0 ≤ η := (abs_nonneg _).trans hτ
  have hg0 := growth_nonneg (n + 1) hη
  have hE0 := hg0.trans hE
  have t0 := tiny_pos.le
  set l := (List.range n).map (fun i => a (i + 1)) with hl
  have hlen : l.length = n := by simp [hl]
  have hc : a 0 :: l = (List.range (n + 1)).map a := by
    rw [List.range_succ_eq_map, hl]
    simp [Function.comp_def]
  have hg : ∀ i ∈ range (n + 1), (a 0 :: l).getD i 0 = a i := fun i hi => by
    rw [hc]
    simp [List.getD, mem_range.mp hi]
  have hS : absSum (a 0 :: l) = ∑ i ∈ range (n + 1), |a i| := by
    rw [absSum, List.length_cons, hlen]
    exact sum_congr rfl fun i hi => by rw [hg i hi]
  have hS0 : 0 ≤ ∑ i ∈ range (n + 1), |a i| := sum_nonneg fun _ _ => abs_nonneg _
  set S := ∑ i ∈ range (n + 1), |a i| with hSd
  have hn1 : (1 : ℝ) ≤ n + 1 := by linarith [(Nat.cast_nonneg n : (0 : ℝ) ≤ n)]
  have hE1 : 1 ≤ 1 + E := by linarith
  have hA : (1 : ℝ) ≤ (n + 1) * (1 + E) := one_le_mul_of_one_le_of_one_le hn1 hE1
  have hN : ((n : ℝ) + 1) ≤ 2 ^ 1020 := by
    refine le_trans ?_ hsz
    calc ((n : ℝ) + 1) = (n + 1) * 1 * (1 + 0) := by ring
      _ ≤ _ := by gcongr
  have hNθ := pow1020_tiny hN
  have hEK : 1 + E ≤ 2 ^ 1020 := by
    refine le_trans ?_ hsz
    calc 1 + E = 1 * (1 + E) * (1 + 0) := by ring
      _ ≤ _ := by gcongr
  have hSK : 1 + S ≤ 2 ^ 1020 := by
    refine le_trans ?_ hsz
    calc 1 + S = 1 * (1 + S) := by ring
      _ ≤ _ := by gcongr
  have ho := pow1020_lt (le_refl ((2 : ℝ) ^ 1020))
  generalize (2 : ℝ) ^ 1020 = K at *
  obtain ⟨v, h1, h2, h3⟩ := clenshawI_near hfl ht hτ dτ (S := S) (K := K) (a := a 0) (l := l) (da 0 (by omega)) (by
      intro c hc
      rw [hl, List.mem_map] at hc
      obtain ⟨i, hi, rfl⟩ := hc
      exact da _ (by rw [List.mem_range] at hi; omega)) hS.le (by
      rw [hlen]
      push_cast
      refine le_trans ?_ hsz
      rw [← mul_assoc]
      refine mul_le_mul (mul_le_mul_of_nonneg_left (by linarith) (by linarith)) (by linarith) (by positivity) (by positivity)) (by
      refine le_trans ?_ hEK
      have h4 : η ≤ stepErr η := by
        have := gam_nonneg 4
        unfold stepErr
        nlinarith
      have h5 : 1 + (n + 1 : ℕ) * stepErr η ≤ (1 + (n + 1 : ℕ) * stepErr η) ^ (n + 1) :=
        le_self_pow₀ (by have := stepErr_nonneg hη; push_cast; nlinarith) (by omega)
      have h6 : (1 + (n + 1 : ℕ) * stepErr η) ^ (n + 1) = 1 + growth (n + 1) η := by unfold growth; ring
      rw [h6] at h5
      have h7 : stepErr η ≤ (n + 1 : ℕ) * stepErr η := le_mul_of_one_le_left (stepErr_nonneg hη) (by push_cast; exact hn1)
      linarith) (by linarith)
  refine ⟨v, ?_, h2, ?_⟩
  · have : (List.range (n + 1)).map (fun i => num (a i)) = num (a 0) :: l.map num := by
      rw [← List.map_cons, hc, List.map_map]
      rfl
    rw [this]
    exact h1
  · rw [hlen, hS, sum_congr rfl (fun i hi => by rw [hg i hi, chebT_eq])] at h3
    refine h3.trans ?_
    push_cast
    have h8 := mul_le_mul_of_nonneg_right hE hS0
    have h9 := mul_le_mul_of_nonneg_right (show 1 + growth (n + 1) η ≤ 1 + E by linarith) (show 0 ≤ ((n : ℝ) + 1) * (4 * tiny) by positivity)
    linarith

/-! ## The coordinate -/

theorem growth_le8 (n : Nat) {κ : ℝ} (hκ : 2 ≤ κ) : growth (n + 1) (8 * uround * κ) ≤ chebErr n κ := by
  have h4 : gam 4 ≤ 5 * uround := (gam_le (by norm_num)).trans (by norm_num)
  have h40 := gam_nonneg 4
  have hu : uround = 1 / 2 ^ 53 := by unfold uround; norm_num
  have hu0 := uround_nonneg
  have hη0 : 0 ≤ 8 * uround * κ := by positivity
  have hs : stepErr (8 * uround * κ) ≤ 25 * κ / 2 ^ 53 := by
    have h1 : gam 4 * (3 + 2 * (8 * uround * κ)) ≤ 5 * uround * (3 + 2 * (8 * uround * κ)) :=
      mul_le_mul_of_nonneg_right h4 (by linarith)
    unfold stepErr
    rw [hu] at h1 ⊢
    linarith
  unfold growth chebErr
  have hs0 := stepErr_nonneg hη0
  have : (1 + ((n + 1 : ℕ) : ℝ) * stepErr (8 * uround * κ)) ≤ 1 + 25 * (n + 1) * κ / 2 ^ 53 := by
    push_cast
    have := mul_le_mul_of_nonneg_left hs (by positivity : (0 : ℝ) ≤ n + 1)
    rw [show 25 * ((n : ℝ) + 1) * κ / 2 ^ 53 = (n + 1) * (25 * κ / 2 ^ 53) by ring]
    linarith
  have h0 : 0 ≤ 1 + ((n + 1 : ℕ) : ℝ) * stepErr (8 * uround * κ) := by positivity
  have := pow_le_pow_left₀ h0 this (n + 1)
  linarith

theorem pow1000_facts : 100 * (2 : ℝ) ^ 1000 < overflow64 ∧ tiny * (2 : ℝ) ^ 1000 ≤ uround / 100 ∧ (1 : ℝ) ≤ 2 ^ 1000 := by
  refine ⟨?_, ?_, one_le_pow₀ (by norm_num)⟩
  · have h := pow1020_lt (K := 100 * (2 : ℝ) ^ 1000) (by
      rw [show (1020 : ℕ) = 20 + 1000 by norm_num, pow_add]
      exact mul_le_mul_of_nonneg_right (by norm_num) (by positivity))
    have : (0 : ℝ) ≤ 2 ^ 1000 := by positivity
    generalize (2 : ℝ) ^ 1000 = P at *
    linarith only [h, this]
  · unfold tiny
    rw [← zpow_natCast, ← zpow_add₀ (by norm_num)]
    unfold uround
    norm_num

/-- The coordinate in binary64. -/
theorem toUnitI_ok (hfl : Ieee fl) {s : Seg ℝ} (hX : s.dom.Usual) (hF : s.dom.Finite64) (hD : s.dom.Scaled) {x : ℝ} (dx : Double64 x) (hx : s.dom.Mem x) :
    ∃ τ, s.toUnitI fl x = .ok (num τ) ∧ Double64 τ ∧ |τ - s.dom.unit x| ≤ 8 * uround * s.dom.cond := by
  have hκ := Domain.cond_ge hX
  have t0 := tiny_pos
  have t1 := tiny_le_cent
  have hu0 := uround_nonneg
  have g : ∀ {k : ℕ} {Q : ℝ}, k ≤ 7 → 0 ≤ Q → (1 + gam k) * Q ≤ 2 * Q := fun hk hQ =>
    mul_le_mul_of_nonneg_right (by have := gam_le_one (k := _) (hk.trans (by norm_num)); linarith) hQ
  obtain ⟨o1, o2, o3⟩ := pow1000_facts
  have d2 : Double64 (2 : ℝ) := by
    have := double64_int 2 (by norm_num)
    norm_num at this ⊢
    exact this
  have d1 : Double64 (1 : ℝ) := by
    have := double64_int 1 (by norm_num)
    norm_num at this ⊢
    exact this
  cases s with
  | closed a b =>
    have hab : a < b := hX
    obtain ⟨h1, h2⟩ : a ≤ x ∧ x ≤ b := hx
    obtain ⟨da, db⟩ : Double64 a ∧ Double64 b := hF
    obtain ⟨s1, s2, s3⟩ : max |a| |b| ≤ 2 ^ 1000 ∧ 1 ≤ 2 ^ 1000 * (b - a) ∧ max |a| |b| ≤ 2 ^ 1000 * (b - a) := hD
    have hd : 0 < b - a := by linarith
    have dh : Double64 (1 / 2 : ℝ) := by
      have := double64_pow (e := -1) (by norm_num) (by norm_num)
      norm_num at this ⊢
      exact this
    have hκ2 : (Seg.closed a b).dom.cond = 4 * max |a| |b| / (b - a) := rfl
    rw [hκ2] at hκ ⊢
    have hi0 : 0 < (b - a)⁻¹ := inv_pos.2 hd
    generalize (2 : ℝ) ^ 1000 = P at *
    have m1 := le_max_left |a| |b|
    have m2 := le_max_right |a| |b|
    have hxa : |x| ≤ max |a| |b| := abs_le_max_abs_abs h1 h2
    generalize hm : max |a| |b| = m at *
    have hm0 : 0 ≤ m := (abs_nonneg _).trans m1
    have hi : (b - a)⁻¹ ≤ P := by
      rw [inv_le_iff_one_le_mul₀ hd]
      exact s2
    have hmi : m * (b - a)⁻¹ ≤ P := by
      rw [← div_eq_mul_inv, div_le_iff₀ hd]
      exact s3
    have hh : |(1 / 2 : ℝ)| = 1 / 2 := by norm_num
    have hba : b - a ≤ 2 * m := by linarith [neg_abs_le a, le_abs_self b]
    have ha0 := abs_nonneg a
    have hb0 := abs_nonneg b
    have hx0 := abs_nonneg x
    -- the factor
    obtain ⟨ε, e1, e2, e3⟩ := fsub_ok hfl db da (by rw [abs_of_pos hd]; linarith)
    have hu1 : uround ≤ 1 / 100 := by unfold uround; norm_num
    have hε := abs_le.1 e1
    have hne : (b - a) * (1 + ε) ≠ 0 := (mul_pos hd (by linarith)).ne'
    have hinv := Near.inv_scale (d := b - a) e1
    have hN : NearA 2 0 (2 * (b - a)⁻¹) (2 * (b - a)⁻¹) (2 * ((b - a) * (1 + ε))⁻¹) := by
      refine ⟨?_, by rw [abs_of_pos (by positivity)], le_rfl⟩
      have := hinv.err
      rw [abs_of_pos hi0] at this
      rw [← mul_sub, abs_mul, abs_two]
      linarith
    obtain ⟨ε', δ, f1, f2, f3, f4⟩ := fquot_ok hfl (x := 2) hne (by
      refine hN.abs_le.trans_lt ((g (by norm_num) (by positivity)).trans_lt ?_)
      linarith)
    have hc : FNear 3 tiny (2 * (b - a)⁻¹) (2 * (b - a)⁻¹) (num (2 * ((b - a) * (1 + ε))⁻¹ * (1 + ε') + δ)) := by
      have := hN.round f1 f2
      rw [zero_add] at this
      exact ⟨_, rfl, f3, this⟩
    -- the centre
    have c1 := (FNear.exact db).add hfl (FNear.exact da) (by
      refine (g (by norm_num) (by positivity)).trans_lt ?_
      linarith)
    have c2 := (FNear.exact dh).mul hfl c1 (by
      refine (g (by norm_num) (by positivity)).trans_lt ?_
      rw [hh]
      linarith)
    have c3 := ((FNear.exact dx).upto (Nat.zero_le 2)).sub hfl (c2.upto (l := 2) (by norm_num)) (by
      refine (g (by norm_num) (by positivity)).trans_lt ?_
      rw [hh]
      simp only [zero_mul, mul_zero, add_zero, zero_add]
      linarith)
    rw [hh] at c3
    simp only [zero_mul, mul_zero, add_zero, zero_add] at c3
    have hQ' : |x| + 1 / 2 * (|b| + |a|) ≤ 2 * m := by linarith
    have hQ0 : 0 ≤ |x| + 1 / 2 * (|b| + |a|) := by positivity
    generalize |x| + 1 / 2 * (|b| + |a|) = q at *
    have hQQ : 2 * (b - a)⁻¹ * q ≤ 4 * m / (b - a) := by
      calc 2 * (b - a)⁻¹ * q ≤ 2 * (b - a)⁻¹ * (2 * m) := by gcongr
        _ = _ := by field_simp; ring
    have hκP : 4 * m / (b - a) ≤ 4 * P := by
      rw [mul_div_assoc, div_eq_mul_inv]
      linarith
    have htP : tiny * P ≤ 1 := o2.trans (by linarith)
    have x1 : tiny * q ≤ 2 * (tiny * P) := by
      have := mul_le_mul_of_nonneg_left (show q ≤ 2 * P by linarith) t0.le
      linarith
    have x2 : 2 * (b - a)⁻¹ * tiny ≤ 2 * (tiny * P) := by
      have := mul_le_mul_of_nonneg_left hi t0.le
      linarith
    have x3 : tiny * tiny ≤ tiny * P := mul_le_mul_of_nonneg_left (by linarith) t0.le
    have x4 : tiny ≤ tiny * P := le_mul_of_one_le_right t0.le o3
    obtain ⟨r, r1, r2, r3⟩ := hc.mul hfl c3 (by
      refine (g (by norm_num) (by positivity)).trans_lt ?_
      have : (2 * (b - a)⁻¹ + tiny) * (q + tiny) = 2 * (b - a)⁻¹ * q + 2 * (b - a)⁻¹ * tiny + tiny * q + tiny * tiny := by ring
      rw [this]
      linarith)
    refine ⟨r, ?_, r2, ?_⟩
    · rw [Seg.toUnitI, e3, f4, Res.ok_bind, r1]
      rfl
    have he := r3.err
    have e1 : 2 * (b - a)⁻¹ * (x - 1 / 2 * (b + a)) = (Seg.closed a b).dom.unit x := by
      show _ = (2 * x - a - b) / (b - a)
      field_simp
      ring
    rw [e1] at he
    refine he.trans ?_
    have g7 : gam 7 ≤ 15 / 2 * uround := by
      unfold gam uround
      norm_num
    have y1 : gam 7 * (2 * (b - a)⁻¹ * q) ≤ 15 / 2 * uround * (4 * m / (b - a)) := mul_le_mul g7 hQQ (by positivity) (by positivity)
    have y2 : (1 + gam 7) * (tiny * q + 2 * (b - a)⁻¹ * tiny + tiny * tiny + tiny) ≤ 2 * (6 * (tiny * P)) := by
      refine (g le_rfl (by positivity)).trans ?_
      linarith
    have y3 : uround * 2 ≤ uround * (4 * m / (b - a)) := mul_le_mul_of_nonneg_left hκ hu0
    linarith
  | opened a =>
    have ha : 0 < a := hX
    have da : Double64 a := hF
    have hx : a ≤ x := hx
    have hx0 : 0 < x := by linarith
    have hq : a / x ≤ 1 := (div_le_one hx0).2 hx
    have hq0 : 0 < a / x := div_pos ha hx0
    have hκ2 : (Seg.opened a).dom.cond = 3 := rfl
    rw [hκ2]
    generalize (2 : ℝ) ^ 1000 = P at *
    rw [div_eq_mul_inv] at hq hq0
    obtain ⟨ε, δ, e1, e2, e3, e4⟩ := fquot_ok hfl (x := a) hx0.ne' (by rw [abs_of_pos hq0]; linarith)
    have hc : FNear 1 tiny (a * x⁻¹) (a * x⁻¹) (num (a * x⁻¹ * (1 + ε) + δ)) := by
      have := (NearA.exact (a * x⁻¹)).round e1 e2
      rw [zero_add, zero_add, abs_of_pos hq0] at this
      exact ⟨_, rfl, e3, this⟩
    have c2 := (FNear.exact d2).mul hfl hc (by
      refine (g (by norm_num) (by positivity)).trans_lt ?_
      rw [abs_two]
      linarith)
    rw [abs_two] at c2
    simp only [zero_mul, add_zero, zero_add] at c2
    obtain ⟨r, r1, r2, r3⟩ := ((FNear.exact d1).upto (Nat.zero_le _)).sub hfl c2 (by
      refine (g (by norm_num) (by positivity)).trans_lt ?_
      rw [abs_one]
      linarith)
    refine ⟨r, ?_, r2, ?_⟩
    · rw [Seg.toUnitI, e4, Res.ok_bind, r1]
      rfl
    have he := (r3.upto (l := 4) (by norm_num)).err
    have e1 : 1 - 2 * (a * x⁻¹) = (Seg.opened a).dom.unit x := by
      show _ = 1 - 2 * a / x
      ring
    rw [e1, abs_one, zero_add] at he
    refine he.trans ?_
    have h4 : gam 4 ≤ 5 * uround := (gam_le (by norm_num)).trans (by norm_num)
    have y1 : gam 4 * (1 + 2 * (a * x⁻¹)) ≤ 5 * uround * 3 := mul_le_mul h4 (by linarith) (by positivity) (by positivity)
    have y2 : (1 + gam 4) * (2 * tiny + tiny) ≤ 2 * (3 * tiny) := by
      refine (g (by norm_num) (by positivity)).trans ?_
      linarith
    have y3 : tiny ≤ uround / 100 := le_trans (le_mul_of_one_le_right t0.le o3) o2
    linarith

theorem four_tiny_pow : 4 * tiny = (2 : ℝ) ^ (-1073 : ℤ) := by
  unfold tiny
  rw [show (4 : ℝ) = 2 ^ (2 : ℤ) by norm_num, ← zpow_add₀ (by norm_num)]
  norm_num

/-! ## C190 -/

/-- C190, one variable: at a point of the domain `Evaluate` returns a finite number when the domain is not extremely wide or narrow and the coefficients are not extremely large; its
error is that of C132 and one smallest positive number for each coefficient. -/
theorem C190_1d_partial (hfl : Ieee fl) (B : Build) {s : CS1 ℝ} (hn : s.m_ai.length = s.m_order_x + 1) (ha : ∀ c ∈ s.m_ai, Double64 c) (hX : s.m_x.dom.Usual)
    (hF : s.m_x.dom.Finite64) (hD : s.m_x.dom.Scaled) {x : ℝ} (dx : Double64 x) (hx : s.m_x.dom.Mem x)
    (hsz : (s.m_order_x + 1) * (1 + chebErr s.m_order_x s.m_x.dom.cond) * (1 + ∑ i ∈ range (s.m_order_x + 1), |s.m_ai.getD i 0|) ≤ 2 ^ 1020) :
    ∃ v, s.evaluateI fl B x = .ok (num v) ∧ Double64 v ∧
      |v - cheb1 s.m_order_x (fun i => s.m_ai.getD i 0) (s.m_x.dom.unit x)| ≤
        chebErr s.m_order_x s.m_x.dom.cond * ∑ i ∈ range (s.m_order_x + 1), |s.m_ai.getD i 0|
          + (1 + chebErr s.m_order_x s.m_x.dom.cond) * ((s.m_order_x + 1) * (2 : ℝ) ^ (-1073 : ℤ)) := by
  obtain ⟨τ, t1, t2, t3⟩ := toUnitI_ok hfl hX hF hD dx hx
  obtain ⟨v, h1, h2, h3⟩ := clenshawI_map hfl (unit_le hX hx) t3 t2 (a := fun i => s.m_ai.getD i 0) (fun i hi => by
    have hi' : i < s.m_ai.length := by omega
    simpa [List.getD, List.getElem?_eq_getElem hi'] using ha _ (List.getElem_mem hi')) (growth_le8 _ (Domain.cond_ge hX)) hsz
  rw [four_tiny_pow] at h3
  refine ⟨v, ?_, h2, h3⟩
  unfold CS1.evaluateI
  rw [t1, Res.ok_bind, collect_ok (fun i => num (s.m_ai.getD i 0)) (fun i hi => ?_), Res.ok_bind]
  · exact h1
  · rw [eAt_lt (by omega)]
    simp [List.getD, List.getElem?_eq_getElem (show i < s.m_ai.length by omega)]

/-! ## Several variables -/

/-- The sum `P` of a series in one variable, computed from its coefficients by `op` with a relative error `E`, for each list of coefficients that are not too large. -/
structure Summed (op : List (Dbl ℝ) → Res (Dbl ℝ)) (n : Nat) (E : ℝ) (P : (Nat → ℝ) → ℝ) : Prop where
  pos : 0 ≤ E
  zero : P (fun _ => 0) = 0
  sub : ∀ a b, |P a - P b| ≤ ∑ i ∈ range (n + 1), |a i - b i|
  near : ∀ a : Nat → ℝ, (∀ i, i < n + 1 → Double64 (a i)) → (n + 1) * (1 + E) * (1 + ∑ i ∈ range (n + 1), |a i|) ≤ 2 ^ 1020 →
    ∃ v, op ((List.range (n + 1)).map (fun i => num (a i))) = .ok (num v) ∧ Double64 v ∧
      |v - P a| ≤ E * ∑ i ∈ range (n + 1), |a i| + (1 + E) * ((n + 1) * (4 * tiny))

namespace Summed

variable {op op' op'' : List (Dbl ℝ) → Res (Dbl ℝ)} {n m l : Nat} {E e f : ℝ} {P P' P'' : (Nat → ℝ) → ℝ}

theorem le (h : Summed op n E P) (a : Nat → ℝ) : |P a| ≤ ∑ i ∈ range (n + 1), |a i| := by
  have := h.sub a (fun _ => 0)
  simpa [h.zero] using this

/-- One more variable. -/
theorem nested (h : Summed op n E P) {r A S : Nat → ℝ} (dr : ∀ i, i < n + 1 → Double64 (r i)) {e e0 : ℝ} (he : 0 ≤ e) (he0 : 0 ≤ e0)
    (h1 : ∀ i, i < n + 1 → |r i - A i| ≤ e * S i + e0) (h2 : ∀ i, i < n + 1 → |A i| ≤ S i)
    (hsz : (n + 1) * (1 + E) * (2 * ((1 + e) * (1 + ∑ i ∈ range (n + 1), S i))) ≤ 2 ^ 1020) (hs0 : (n + 1) * e0 ≤ 1) :
    ∃ v, op ((List.range (n + 1)).map (fun i => num (r i))) = .ok (num v) ∧ Double64 v ∧
      |v - P A| ≤ ((1 + E) * (1 + e) - 1) * ∑ i ∈ range (n + 1), S i + (1 + E) * ((n + 1) * (e0 + 4 * tiny)) := by
  have hE0 := h.pos
  have hSS : 0 ≤ ∑ i ∈ range (n + 1), S i := sum_nonneg fun i hi => (abs_nonneg _).trans (h2 i (mem_range.1 hi))
  have h5 : ∑ i ∈ range (n + 1), |r i| ≤ (1 + e) * ∑ i ∈ range (n + 1), S i + (n + 1) * e0 := by
    have : ∑ i ∈ range (n + 1), |r i| ≤ ∑ i ∈ range (n + 1), ((1 + e) * S i + e0) := by
      refine sum_le_sum fun i hi => ?_
      have hi := mem_range.1 hi
      have := abs_add_le (r i - A i) (A i)
      rw [sub_add_cancel] at this
      linarith [h1 i hi, h2 i hi]
    refine this.trans (le_of_eq ?_)
    rw [sum_add_distrib, ← mul_sum, sum_const, card_range, nsmul_eq_mul]
    push_cast
    ring
  have h5' : 1 + ∑ i ∈ range (n + 1), |r i| ≤ 2 * ((1 + e) * (1 + ∑ i ∈ range (n + 1), S i)) := by
    have := mul_nonneg he hSS
    linarith
  obtain ⟨v, h3, h3', h4⟩ := h.near r dr ((mul_le_mul_of_nonneg_left h5' (by positivity)).trans hsz)
  refine ⟨v, h3, h3', ?_⟩
  have h6 : |P r - P A| ≤ e * ∑ i ∈ range (n + 1), S i + (n + 1) * e0 := by
    refine (h.sub r A).trans ?_
    refine (sum_le_sum fun i hi => h1 i (mem_range.1 hi)).trans (le_of_eq ?_)
    rw [sum_add_distrib, ← mul_sum, sum_const, card_range, nsmul_eq_mul]
    push_cast
    ring
  have h7 := abs_sub_le v (P r) (P A)
  have h8 := mul_le_mul_of_nonneg_left h5 hE0
  clear hsz
  linarith

/-- A series in two variables, summed by rows. -/
theorem two (hx : Summed op n E P) (hy : Summed op' m e P') {a : Nat → Nat → ℝ} (ha : ∀ i < n + 1, ∀ j < m + 1, Double64 (a i j))
    (hsz : (n + 1) * (m + 1) * ((1 + E) * (1 + e)) * (1 + ∑ i ∈ range (n + 1), ∑ j ∈ range (m + 1), |a i j|) ≤ 2 ^ 1018) :
    ∃ (r : Nat → ℝ) (v : ℝ), (∀ i < n + 1, op' ((List.range (m + 1)).map (fun j => num (a i j))) = .ok (num (r i))) ∧
      op ((List.range (n + 1)).map (fun i => num (r i))) = .ok (num v) ∧ Double64 v ∧
      |v - P (fun i => P' (a i))| ≤ ((1 + E) * (1 + e) - 1) * ∑ i ∈ range (n + 1), ∑ j ∈ range (m + 1), |a i j|
        + (1 + E) * (1 + e) * ((n + 1) * (m + 2) * (4 * tiny)) := by
  have ex := hx.pos
  have ey := hy.pos
  have hS : ∀ i, 0 ≤ ∑ j ∈ range (m + 1), |a i j| := fun i => sum_nonneg fun _ _ => abs_nonneg _
  have hi : ∀ i, i < n + 1 → ∑ j ∈ range (m + 1), |a i j| ≤ ∑ i ∈ range (n + 1), ∑ j ∈ range (m + 1), |a i j| := fun i hi =>
    single_le_sum (f := fun i => ∑ j ∈ range (m + 1), |a i j|) (fun i _ => hS i) (mem_range.2 hi)
  have hSS : 0 ≤ ∑ i ∈ range (n + 1), ∑ j ∈ range (m + 1), |a i j| := sum_nonneg fun i _ => hS i
  have hp : 4 * (2 : ℝ) ^ 1018 = 2 ^ 1020 := by rw [show (1020 : ℕ) = 2 + 1018 by norm_num, pow_add]; norm_num
  have t0 := tiny_pos.le
  have hnx : (1 : ℝ) ≤ n + 1 := by linarith [(Nat.cast_nonneg n : (0 : ℝ) ≤ n)]
  have hny : (1 : ℝ) ≤ m + 1 := by linarith [(Nat.cast_nonneg m : (0 : ℝ) ≤ m)]
  have hrow : ∀ i, ∃ v, i < n + 1 → op' ((List.range (m + 1)).map (fun j => num (a i j))) = .ok (num v) ∧ Double64 v ∧
      |v - P' (a i)| ≤ e * ∑ j ∈ range (m + 1), |a i j| + (1 + e) * ((m + 1) * (4 * tiny)) := by
    intro i
    by_cases hi' : i < n + 1
    · obtain ⟨v, hv⟩ := hy.near (a i) (fun j hj => ha i hi' j hj) (by
        refine le_trans (le_trans ?_ hsz) (pow_le_pow_right₀ (by norm_num) (by norm_num))
        have := hi i hi'
        have := hS i
        calc ((m : ℝ) + 1) * (1 + e) * (1 + ∑ j ∈ range (m + 1), |a i j|)
            = 1 * (m + 1) * (1 * (1 + e)) * (1 + ∑ j ∈ range (m + 1), |a i j|) := by ring
          _ ≤ _ := by gcongr; linarith)
      exact ⟨v, fun _ => hv⟩
    · exact ⟨0, fun h => absurd h hi'⟩
  choose r hr using hrow
  obtain ⟨v, h1, h2, h3⟩ := hx.nested (r := r) (A := fun i => P' (a i))
    (S := fun i => ∑ j ∈ range (m + 1), |a i j|) (fun i hi => (hr i hi).2.1) ey (e0 := (1 + e) * ((m + 1) * (4 * tiny))) (by positivity)
    (fun i hi => (hr i hi).2.2) (fun i _ => hy.le _) (by
      rw [← hp]
      refine le_trans ?_ (mul_le_mul_of_nonneg_left hsz (by norm_num))
      generalize ∑ i ∈ range (n + 1), ∑ j ∈ range (m + 1), |a i j| = S at *
      calc ((n : ℝ) + 1) * (1 + E) * (2 * ((1 + e) * (1 + S))) = 2 * ((n + 1) * 1 * ((1 + E) * (1 + e)) * (1 + S)) := by ring
        _ ≤ 4 * ((n + 1) * (m + 1) * ((1 + E) * (1 + e)) * (1 + S)) := by gcongr; norm_num) (by
      have : ((n : ℝ) + 1) * ((1 + e) * (m + 1)) ≤ 2 ^ 1020 := by
        refine le_trans (le_trans ?_ hsz) (pow_le_pow_right₀ (by norm_num) (by norm_num))
        generalize ∑ i ∈ range (n + 1), ∑ j ∈ range (m + 1), |a i j| = S at *
        calc ((n : ℝ) + 1) * ((1 + e) * (m + 1)) = (n + 1) * (m + 1) * ((1 + 0) * (1 + e)) * (1 + 0) := by ring
          _ ≤ _ := by gcongr
      have := pow1020_tiny this
      linarith)
  refine ⟨r, v, fun i hi => (hr i hi).1, h1, h2, ?_⟩
  refine h3.trans (add_le_add le_rfl ?_)
  have k1 : (1 + e) * ((m + 1) * (4 * tiny)) + 4 * tiny ≤ (1 + e) * ((m + 2) * (4 * tiny)) := by
    have := mul_nonneg ey t0
    linarith
  calc (1 + E) * ((n + 1) * ((1 + e) * ((m + 1) * (4 * tiny)) + 4 * tiny))
      ≤ (1 + E) * ((n + 1) * ((1 + e) * ((m + 2) * (4 * tiny)))) := by gcongr
    _ = _ := by ring

/-- A series in three variables. -/
theorem three (hx : Summed op n E P) (hy : Summed op' m e P') (hz : Summed op'' l f P'') {a : Nat → Nat → Nat → ℝ}
    (da : ∀ i < n + 1, ∀ j < m + 1, ∀ k < l + 1, Double64 (a i j k))
    (hsz : (n + 1) * (m + 1) * (l + 1) * ((1 + E) * (1 + e) * (1 + f)) *
      (1 + ∑ i ∈ range (n + 1), ∑ j ∈ range (m + 1), ∑ k ∈ range (l + 1), |a i j k|) ≤ 2 ^ 1018) :
    ∃ (p : Nat → Nat → ℝ) (r : Nat → ℝ) (v : ℝ), (∀ i < n + 1, ∀ j < m + 1, op'' ((List.range (l + 1)).map (fun k => num (a i j k))) = .ok (num (p i j))) ∧
      (∀ i < n + 1, op' ((List.range (m + 1)).map (fun j => num (p i j))) = .ok (num (r i))) ∧
      op ((List.range (n + 1)).map (fun i => num (r i))) = .ok (num v) ∧ Double64 v ∧
      |v - P (fun i => P' (fun j => P'' (a i j)))| ≤
        ((1 + E) * (1 + e) * (1 + f) - 1) * ∑ i ∈ range (n + 1), ∑ j ∈ range (m + 1), ∑ k ∈ range (l + 1), |a i j k|
          + (1 + E) * (1 + e) * (1 + f) * ((n + 1) * (m + 1) * (l + 3) * (4 * tiny)) := by
  have ex := hx.pos
  have ey := hy.pos
  have ez := hz.pos
  have hS0 : ∀ i j, 0 ≤ ∑ k ∈ range (l + 1), |a i j k| := fun i j => sum_nonneg fun _ _ => abs_nonneg _
  have hS1 : ∀ i, 0 ≤ ∑ j ∈ range (m + 1), ∑ k ∈ range (l + 1), |a i j k| := fun i => sum_nonneg fun j _ => hS0 i j
  have hi : ∀ i, i < n + 1 → ∑ j ∈ range (m + 1), ∑ k ∈ range (l + 1), |a i j k| ≤
      ∑ i ∈ range (n + 1), ∑ j ∈ range (m + 1), ∑ k ∈ range (l + 1), |a i j k| := fun i hi =>
    single_le_sum (f := fun i => ∑ j ∈ range (m + 1), ∑ k ∈ range (l + 1), |a i j k|) (fun i _ => hS1 i) (mem_range.2 hi)
  have hj : ∀ i j, j < m + 1 → ∑ k ∈ range (l + 1), |a i j k| ≤ ∑ j ∈ range (m + 1), ∑ k ∈ range (l + 1), |a i j k| := fun i j hj =>
    single_le_sum (f := fun j => ∑ k ∈ range (l + 1), |a i j k|) (fun j _ => hS0 i j) (mem_range.2 hj)
  have hSS : 0 ≤ ∑ i ∈ range (n + 1), ∑ j ∈ range (m + 1), ∑ k ∈ range (l + 1), |a i j k| := sum_nonneg fun i _ => hS1 i
  have hp : 4 * (2 : ℝ) ^ 1018 = 2 ^ 1020 := by rw [show (1020 : ℕ) = 2 + 1018 by norm_num, pow_add]; norm_num
  have t0 := tiny_pos.le
  have hnx : (1 : ℝ) ≤ n + 1 := by linarith [(Nat.cast_nonneg n : (0 : ℝ) ≤ n)]
  have hny : (1 : ℝ) ≤ m + 1 := by linarith [(Nat.cast_nonneg m : (0 : ℝ) ≤ m)]
  have hnz : (1 : ℝ) ≤ l + 1 := by linarith [(Nat.cast_nonneg l : (0 : ℝ) ≤ l)]
  have hny0 : (0 : ℝ) ≤ m := Nat.cast_nonneg _
  have hnz0 : (0 : ℝ) ≤ l := Nat.cast_nonneg _
  -- any part of the size
  have part : ∀ {p q r P Q R S : ℝ}, 0 ≤ p → p ≤ n + 1 → 0 ≤ q → q ≤ m + 1 → 0 ≤ r → r ≤ 2 * (l + 1) → 0 ≤ P → P ≤ 1 + E → 0 ≤ Q → Q ≤ 1 + e → 0 ≤ R → R ≤ 1 + f → 0 ≤ S →
      S ≤ 1 + ∑ i ∈ range (n + 1), ∑ j ∈ range (m + 1), ∑ k ∈ range (l + 1), |a i j k| →
      2 * (p * q * r * (P * Q * R) * S) ≤ 2 ^ 1020 := by
    intro p q r P Q R S hp0 hp1 hq0 hq1 hr0 hr1 hP0 hP1 hQ0 hQ1 hR0 hR1 hS0 hS1
    rw [← hp]
    refine le_trans ?_ (mul_le_mul_of_nonneg_left hsz (by norm_num))
    calc 2 * (p * q * r * (P * Q * R) * S) ≤ 2 * ((n + 1) * (m + 1) * (2 * (l + 1)) * ((1 + E) * (1 + e) * (1 + f)) *
          (1 + ∑ i ∈ range (n + 1), ∑ j ∈ range (m + 1), ∑ k ∈ range (l + 1), |a i j k|)) := by gcongr
      _ = _ := by ring
  clear hsz
  set e0 := (1 + f) * ((l + 1) * (4 * tiny)) with he0
  have e00 : 0 ≤ e0 := by rw [he0]; positivity
  -- the inner sums
  have hin : ∀ i j, ∃ v, i < n + 1 → j < m + 1 → op'' ((List.range (l + 1)).map (fun k => num (a i j k))) =
      .ok (num v) ∧ Double64 v ∧ |v - P'' (a i j)| ≤ f * ∑ k ∈ range (l + 1), |a i j k| + e0 := by
    intro i j
    by_cases hij : i < n + 1 ∧ j < m + 1
    · obtain ⟨hi', hj'⟩ := hij
      obtain ⟨v, hv⟩ := hz.near (a i j) (fun k hk => da i hi' j hj' k hk) (by
        have k1 := part zero_le_one hnx zero_le_one hny (r := l + 1) (by linarith) (by linarith) zero_le_one (by linarith) zero_le_one (by linarith)
          (R := 1 + f) (by linarith) le_rfl (S := 1 + ∑ k ∈ range (l + 1), |a i j k|) (by linarith [hS0 i j]) (by linarith [hi i hi', hj i j hj'])
        refine le_trans ?_ k1
        have : 0 ≤ ((l : ℝ) + 1) * (1 + f) * (1 + ∑ k ∈ range (l + 1), |a i j k|) := by
          have := hS0 i j
          positivity
        linarith)
      exact ⟨v, fun _ _ => hv⟩
    · exact ⟨0, fun h h' => absurd ⟨h, h'⟩ hij⟩
  choose p hp' using hin
  -- the middle sums
  have hmid : ∀ i, ∃ v, i < n + 1 → op' ((List.range (m + 1)).map (fun j => num (p i j))) =
      .ok (num v) ∧ Double64 v ∧ |v - P' (fun j => P'' (a i j))| ≤
        ((1 + e) * (1 + f) - 1) * ∑ j ∈ range (m + 1), ∑ k ∈ range (l + 1), |a i j k| + (1 + e) * ((m + 1) * (e0 + 4 * tiny)) := by
    intro i
    by_cases hi' : i < n + 1
    · obtain ⟨v, hv⟩ := hy.nested (r := p i) (A := fun j => P'' (a i j))
        (S := fun j => ∑ k ∈ range (l + 1), |a i j k|) (fun j hj => (hp' i j hi' hj).2.1) ez e00 (fun j hj => (hp' i j hi' hj).2.2) (fun j _ => hz.le _) (by
          have k1 := part zero_le_one hnx (q := m + 1) (by linarith) le_rfl (r := 1) (by linarith) (by linarith) zero_le_one (by linarith) (Q := 1 + e) (by linarith) le_rfl
            (R := 1 + f) (by linarith) le_rfl (S := 1 + ∑ j ∈ range (m + 1), ∑ k ∈ range (l + 1), |a i j k|) (by linarith [hS1 i]) (by linarith [hi i hi'])
          refine le_trans (le_of_eq ?_) k1
          ring) (by
          have k1 := part zero_le_one hnx (q := m + 1) (by linarith) le_rfl (r := l + 1) (by linarith) (by linarith) zero_le_one (by linarith) zero_le_one (by linarith)
            (R := 1 + f) (by linarith) le_rfl (S := 1) (by linarith) (by linarith)
          have k2 := pow1020_tiny k1
          have k3 : 0 ≤ ((m : ℝ) + 1) * e0 := by positivity
          have k4 : 2 * (1 * ((m : ℝ) + 1) * (l + 1) * (1 * 1 * (1 + f)) * 1) * (4 * tiny) = 2 * ((m + 1) * e0) := by rw [he0]; ring
          rw [k4] at k2
          linarith)
      exact ⟨v, fun _ => hv⟩
    · exact ⟨0, fun h => absurd h hi'⟩
  choose r hr using hmid
  set e1 := (1 + e) * ((m + 1) * (e0 + 4 * tiny)) with he1
  have e10 : 0 ≤ e1 := by rw [he1]; positivity
  have k0 : e0 + 4 * tiny ≤ (1 + f) * ((l + 2) * (4 * tiny)) := by
    have := mul_nonneg ez t0
    rw [he0]
    linarith
  have k1 : e1 ≤ (1 + e) * (1 + f) * ((m + 1) * (l + 2) * (4 * tiny)) := by
    calc e1 ≤ (1 + e) * ((m + 1) * ((1 + f) * ((l + 2) * (4 * tiny)))) := by rw [he1]; gcongr
      _ = _ := by ring
  obtain ⟨v, h1, h2, h3⟩ := hx.nested (r := r)
    (A := fun i => P' (fun j => P'' (a i j)))
    (S := fun i => ∑ j ∈ range (m + 1), ∑ k ∈ range (l + 1), |a i j k|) (fun i hi => (hr i hi).2.1)
    (e := (1 + e) * (1 + f) - 1) (by nlinarith) e10 (fun i hi => (hr i hi).2.2) (fun i _ => (hy.le _).trans (sum_le_sum fun j _ => hz.le _)) (by
      have k2 := part (p := n + 1) (by linarith) le_rfl zero_le_one hny (r := 1) (by linarith) (by linarith) (P := 1 + E) (by linarith) le_rfl (Q := 1 + e) (by linarith) le_rfl
        (R := 1 + f) (by linarith) le_rfl (S := 1 + ∑ i ∈ range (n + 1), ∑ j ∈ range (m + 1), ∑ k ∈ range (l + 1), |a i j k|) (by linarith) le_rfl
      refine le_trans (le_of_eq ?_) k2
      ring) (by
      have k2 := part (p := n + 1) (by linarith) le_rfl (q := m + 1) (by linarith) le_rfl (r := l + 2) (by linarith) (by linarith) zero_le_one (by linarith)
        (Q := 1 + e) (by linarith) le_rfl (R := 1 + f) (by linarith) le_rfl (S := 1) (by linarith) (by linarith)
      have k3 := pow1020_tiny k2
      have k4 : ((n : ℝ) + 1) * e1 ≤ (n + 1) * ((1 + e) * (1 + f) * ((m + 1) * (l + 2) * (4 * tiny))) := by gcongr
      have k5 : 2 * (((n : ℝ) + 1) * (m + 1) * (l + 2) * (1 * (1 + e) * (1 + f)) * 1) * (4 * tiny) =
        2 * ((n + 1) * ((1 + e) * (1 + f) * ((m + 1) * (l + 2) * (4 * tiny)))) := by ring
      have k6 : 0 ≤ ((n : ℝ) + 1) * e1 := by positivity
      rw [k5] at k3
      linarith)
  refine ⟨p, r, v, fun i hi j hj => (hp' i j hi hj).1, fun i hi => (hr i hi).1, h1, h2, ?_⟩
  refine h3.trans (add_le_add (le_of_eq (by ring)) ?_)
  have hz2 : (1 : ℝ) * (4 * tiny) ≤ (1 + e) * (1 + f) * ((m + 1) * (4 * tiny)) := by
    have h1 : (1 : ℝ) ≤ (1 + e) * (1 + f) := one_le_mul_of_one_le_of_one_le (by linarith) (by linarith)
    have h2 : (4 * tiny) ≤ (m + 1) * (4 * tiny) := le_mul_of_one_le_left (by linarith) hny
    exact mul_le_mul h1 h2 (by linarith) (by linarith)
  have k2 : e1 + 4 * tiny ≤ (1 + e) * (1 + f) * ((m + 1) * (l + 3) * (4 * tiny)) := by
    have : (1 + e) * (1 + f) * ((m + 1) * (l + 3) * (4 * tiny)) =
      (1 + e) * (1 + f) * ((m + 1) * (l + 2) * (4 * tiny)) + (1 + e) * (1 + f) * ((m + 1) * (4 * tiny)) := by ring
    rw [this]
    linarith
  calc (1 + E) * ((n + 1) * (e1 + 4 * tiny))
      ≤ (1 + E) * ((n + 1) * ((1 + e) * (1 + f) * ((m + 1) * (l + 3) * (4 * tiny)))) := by gcongr
    _ = _ := by ring

end Summed

/-- The recurrence sums a Chebyshev series. -/
theorem clenshawI_summed (hfl : Ieee fl) {t τ κ : ℝ} (ht : |t| ≤ 1) (hκ : 2 ≤ κ) (hτ : |τ - t| ≤ 8 * uround * κ) (dτ : Double64 τ) (n : Nat) :
    Summed (fun l => doubleHeadI fl l >>= fun l => clenshawI fl l (num τ)) n (chebErr n κ) (fun a => cheb1 n a t) where
  pos := chebErr_nonneg n hκ
  zero := by simp [cheb1]
  sub a b := cheb1_sub_le ht n b a
  near _ da hsz := clenshawI_map hfl ht hτ dτ da (growth_le8 n hκ) hsz

/-- C190, two variables. -/
theorem C190_2d_partial (hfl : Ieee fl) (B : Build) {s : CS2 ℝ} (hn : s.m_aij.rows = s.m_order_x + 1) (hm : s.m_aij.cols = s.m_order_y + 1)
    (ha : ∀ i < s.m_order_x + 1, ∀ j < s.m_order_y + 1, Double64 (s.m_aij.entry i j)) (hX : s.m_x.dom.Usual) (hFX : s.m_x.dom.Finite64) (hDX : s.m_x.dom.Scaled) (hY : s.m_y.dom.Usual) (hFY : s.m_y.dom.Finite64)
    (hDY : s.m_y.dom.Scaled) {x y : ℝ} (dx : Double64 x) (hx : s.m_x.dom.Mem x) (dy : Double64 y) (hy : s.m_y.dom.Mem y)
    (hsz : (s.m_order_x + 1) * (s.m_order_y + 1) * ((1 + chebErr s.m_order_x s.m_x.dom.cond) * (1 + chebErr s.m_order_y s.m_y.dom.cond)) *
      (1 + ∑ i ∈ range (s.m_order_x + 1), ∑ j ∈ range (s.m_order_y + 1), |s.m_aij.entry i j|) ≤ 2 ^ 1018) :
    ∃ v, s.evaluateI fl B x y = .ok (num v) ∧ Double64 v ∧
      |v - cheb2 s.m_order_x s.m_order_y s.m_aij.entry (s.m_x.dom.unit x) (s.m_y.dom.unit y)| ≤
        ((1 + chebErr s.m_order_x s.m_x.dom.cond) * (1 + chebErr s.m_order_y s.m_y.dom.cond) - 1) *
            ∑ i ∈ range (s.m_order_x + 1), ∑ j ∈ range (s.m_order_y + 1), |s.m_aij.entry i j|
          + (1 + chebErr s.m_order_x s.m_x.dom.cond) * (1 + chebErr s.m_order_y s.m_y.dom.cond) *
            ((s.m_order_x + 1) * (s.m_order_y + 2) * (2 : ℝ) ^ (-1073 : ℤ)) := by
  obtain ⟨τ, t1, t2, t3⟩ := toUnitI_ok hfl hX hFX hDX dx hx
  obtain ⟨σ, u1, u2, u3⟩ := toUnitI_ok hfl hY hFY hDY dy hy
  obtain ⟨r, v, h0, h1, h2, h3⟩ := (clenshawI_summed hfl (unit_le hX hx) (Domain.cond_ge hX) t3 t2 s.m_order_x).two
    (clenshawI_summed hfl (unit_le hY hy) (Domain.cond_ge hY) u3 u2 s.m_order_y) ha hsz
  refine ⟨v, ?_, h2, by rw [cheb2_nested, ← four_tiny_pow]; exact h3⟩
  unfold CS2.evaluateI
  rw [t1, Res.ok_bind, u1, Res.ok_bind, collect_ok (fun i => num (r i)) (fun i hi => ?_), Res.ok_bind]
  · exact h1
  · rw [Mat.row, if_pos (by omega), Res.ok_bind, hm, List.map_map]
    exact h0 i hi

/-- C190, three variables. -/
theorem C190_3d_partial (hfl : Ieee fl) (B : Build) {s : CS3 ℝ} (hl : s.m_aijk.length = s.m_order_z + 1)
    (hn : ∀ M ∈ s.m_aijk, M.rows = s.m_order_x + 1 ∧ M.cols = s.m_order_y + 1) (hX : s.m_x.dom.Usual) (hFX : s.m_x.dom.Finite64) (hDX : s.m_x.dom.Scaled)
    (hY : s.m_y.dom.Usual) (hFY : s.m_y.dom.Finite64) (hDY : s.m_y.dom.Scaled) (hZ : s.m_z.dom.Usual) (hFZ : s.m_z.dom.Finite64) (hDZ : s.m_z.dom.Scaled) {x y z : ℝ}
    (dx : Double64 x) (hx : s.m_x.dom.Mem x) (dy : Double64 y) (hy : s.m_y.dom.Mem y) (dz : Double64 z) (hz : s.m_z.dom.Mem z) :
    let a : Nat → Nat → Nat → ℝ := fun i j k => (s.m_aijk[k]?.getD (Mat.zero 0 0)).entry i j
    (∀ i < s.m_order_x + 1, ∀ j < s.m_order_y + 1, ∀ k < s.m_order_z + 1, Double64 (a i j k)) →
    ((s.m_order_x + 1) * (s.m_order_y + 1) * (s.m_order_z + 1) *
      ((1 + chebErr s.m_order_x s.m_x.dom.cond) * (1 + chebErr s.m_order_y s.m_y.dom.cond) * (1 + chebErr s.m_order_z s.m_z.dom.cond)) *
      (1 + ∑ i ∈ range (s.m_order_x + 1), ∑ j ∈ range (s.m_order_y + 1), ∑ k ∈ range (s.m_order_z + 1), |a i j k|) ≤ 2 ^ 1018) →
    ∃ v, s.evaluateI fl B x y z = .ok (num v) ∧ Double64 v ∧
      |v - cheb3 s.m_order_x s.m_order_y s.m_order_z a (s.m_x.dom.unit x) (s.m_y.dom.unit y) (s.m_z.dom.unit z)| ≤
        ((1 + chebErr s.m_order_x s.m_x.dom.cond) * (1 + chebErr s.m_order_y s.m_y.dom.cond) * (1 + chebErr s.m_order_z s.m_z.dom.cond) - 1) *
            ∑ i ∈ range (s.m_order_x + 1), ∑ j ∈ range (s.m_order_y + 1), ∑ k ∈ range (s.m_order_z + 1), |a i j k|
          + (1 + chebErr s.m_order_x s.m_x.dom.cond) * (1 + chebErr s.m_order_y s.m_y.dom.cond) * (1 + chebErr s.m_order_z s.m_z.dom.cond) *
            ((s.m_order_x + 1) * (s.m_order_y + 1) * (s.m_order_z + 3) * (2 : ℝ) ^ (-1073 : ℤ)) := by
  intro a da hsz
  obtain ⟨τ, t1, t2, t3⟩ := toUnitI_ok hfl hX hFX hDX dx hx
  obtain ⟨σ, u1, u2, u3⟩ := toUnitI_ok hfl hY hFY hDY dy hy
  obtain ⟨ω, w1, w2, w3⟩ := toUnitI_ok hfl hZ hFZ hDZ dz hz
  obtain ⟨p, r, v, h0, h0', h1, h2, h3⟩ := (clenshawI_summed hfl (unit_le hX hx) (Domain.cond_ge hX) t3 t2 s.m_order_x).three
    (clenshawI_summed hfl (unit_le hY hy) (Domain.cond_ge hY) u3 u2 s.m_order_y) (clenshawI_summed hfl (unit_le hZ hz) (Domain.cond_ge hZ) w3 w2 s.m_order_z) da hsz
  refine ⟨v, ?_, h2, by rw [cheb3_nested, ← four_tiny_pow]; exact h3⟩
  unfold CS3.evaluateI
  rw [t1, Res.ok_bind, u1, Res.ok_bind, w1, Res.ok_bind, collect_ok (fun i => num (r i)) (fun i hi => ?_), Res.ok_bind]
  · exact h1
  · rw [collect_ok (fun j => num (p i j)) (fun j hj => ?_), Res.ok_bind]
    · exact h0' i hi
    · rw [collect_ok (fun k => num (a i j k)) (fun k hk => ?_), Res.ok_bind]
      · exact h0 i hi j hj
      · have hk' : k < s.m_aijk.length := by omega
        obtain ⟨g1, g2⟩ := hn _ (List.getElem_mem hk')
        rw [cubeGet, vAt_lt hk', Res.ok_bind, Mat.at', if_pos ⟨by omega, by omega⟩]
        simp [a, List.getElem?_eq_getElem hk']

/-- C190: the hypotheses are met. -/
example : ∃ v, CS1.evaluateI fl64 ⟨true⟩ ⟨fun _ => 0, 2, .closed (-1) 3, [1, 2, -1]⟩ 3 = .ok (num v) ∧ |v - 2| < 1 / 10 ^ 11 := by
  have hd : ∀ n : ℤ, |n| < 100 → Double64 (n : ℝ) := fun n hn => double64_int n (hn.trans (by norm_num))
  have e1 : (Seg.closed (-1 : ℝ) 3).dom.unit 3 = 1 := by norm_num [Seg.dom, Domain.unit]
  have e2 : (Seg.closed (-1 : ℝ) 3).dom.cond = 3 := by
    show 4 * max |(-1 : ℝ)| |3| / (3 - -1) = 3
    norm_num
  have em : max |(-1 : ℝ)| |3| = 3 := by norm_num
  obtain ⟨v, h1, -, h2⟩ := C190_1d_partial fl64_ieee ⟨true⟩ (s := ⟨fun _ => 0, 2, .closed (-1) 3, [1, 2, -1]⟩) rfl
    (by
      intro c hc
      simp only [List.mem_cons, List.not_mem_nil, or_false] at hc
      rcases hc with rfl | rfl | rfl
      · simpa using hd 1 (by norm_num)
      · simpa using hd 2 (by norm_num)
      · simpa using hd (-1) (by norm_num))
    (show (-1 : ℝ) < 3 by norm_num) (show Double64 (-1) ∧ Double64 3 from ⟨by simpa using hd (-1) (by norm_num), by simpa using hd 3 (by norm_num)⟩)
    (show max |(-1 : ℝ)| |3| ≤ 2 ^ 1000 ∧ 1 ≤ 2 ^ 1000 * (3 - -1 : ℝ) ∧ max |(-1 : ℝ)| |3| ≤ 2 ^ 1000 * (3 - -1 : ℝ) by
      have : (2 : ℝ) ^ 2 ≤ 2 ^ 1000 := pow_le_pow_right₀ (by norm_num) (by norm_num)
      rw [em]
      generalize (2 : ℝ) ^ 1000 = P at *
      refine ⟨?_, ?_, ?_⟩ <;> linarith) (x := 3) (by simpa using hd 3 (by norm_num)) ⟨by norm_num, le_rfl⟩
    (by
      simp only [e2]
      refine le_trans ?_ (pow_le_pow_right₀ (by norm_num : (1 : ℝ) ≤ 2) (show 10 ≤ 1020 by norm_num))
      norm_num [chebErr, sum_range_succ])
  refine ⟨v, h1, ?_⟩
  simp only [e1, e2] at h2
  have h3 : (2 : ℝ) ^ (-1073 : ℤ) ≤ (2 : ℝ) ^ (-60 : ℤ) := zpow_le_zpow_right₀ (by norm_num) (by norm_num)
  generalize (2 : ℝ) ^ (-1073 : ℤ) = w at *
  have h4 : (2 : ℝ) ^ (-60 : ℤ) ≤ 1 / 10 ^ 18 := by norm_num
  norm_num [cheb1, chebErr, sum_range_succ] at h2
  have h5 : |v - 2| = |v - (1 + 2 - 1)| := by norm_num
  rw [h5]
  clear h5
  refine lt_of_le_of_lt (le_trans (le_of_eq ?_) h2) ?_
  · norm_num
  · norm_num at h3 h4 ⊢
    linarith

theorem small_double64 (n : ℤ) (hn : |n| < 100) : Double64 (n : ℝ) := double64_int n (hn.trans (by norm_num))

/-- A segment and a half line to evaluate series on. -/
theorem small_domains : ((Domain.segment (-1 : ℝ) 3).Usual ∧ (Domain.segment (-1 : ℝ) 3).Finite64 ∧ (Domain.segment (-1 : ℝ) 3).Scaled ∧ (Domain.segment (-1 : ℝ) 3).cond = 3 ∧
      (Domain.segment (-1 : ℝ) 3).Mem 2) ∧
    ((Domain.halfLine (1 : ℝ)).Usual ∧ (Domain.halfLine (1 : ℝ)).Finite64 ∧ (Domain.halfLine (1 : ℝ)).Scaled ∧ (Domain.halfLine (1 : ℝ)).cond = 3 ∧ (Domain.halfLine (1 : ℝ)).Mem 5) ∧
    Double64 2 ∧ Double64 5 := by
  have em : max |(-1 : ℝ)| |3| = 3 := by norm_num
  refine ⟨⟨show (-1 : ℝ) < 3 by norm_num, ⟨by simpa using small_double64 (-1) (by norm_num), by simpa using small_double64 3 (by norm_num)⟩, ?_, ?_, by norm_num [Domain.Mem]⟩,
    ⟨show (0 : ℝ) < 1 by norm_num, show Double64 1 by simpa using small_double64 1 (by norm_num), trivial, rfl, by norm_num [Domain.Mem]⟩,
    by simpa using small_double64 2 (by norm_num), by simpa using small_double64 5 (by norm_num)⟩
  · show max |(-1 : ℝ)| |3| ≤ 2 ^ 1000 ∧ 1 ≤ 2 ^ 1000 * (3 - -1 : ℝ) ∧ max |(-1 : ℝ)| |3| ≤ 2 ^ 1000 * (3 - -1 : ℝ)
    have : (2 : ℝ) ^ 2 ≤ 2 ^ 1000 := pow_le_pow_right₀ (by norm_num) (by norm_num)
    rw [em]
    generalize (2 : ℝ) ^ 1000 = P at *
    refine ⟨?_, ?_, ?_⟩ <;> linarith
  · show 4 * max |(-1 : ℝ)| |3| / (3 - -1) = 3
    norm_num

/-- C190, two variables: the hypotheses are met. -/
example : ∃ v, CS2.evaluateI fl64 ⟨true⟩ ⟨fun _ _ => 0, 1, 2, .closed (-1) 3, .opened 1, ⟨2, 3, fun i j => ((3 * i : ℤ) - j : ℤ)⟩⟩ 2 5 = .ok (num v) ∧ Double64 v := by
  obtain ⟨⟨u1, u2, u3, u4, u5⟩, ⟨w1, w2, w3, w4, w5⟩, d2, d5⟩ := small_domains
  obtain ⟨v, h1, h2, -⟩ := C190_2d_partial fl64_ieee ⟨true⟩ (s := ⟨fun _ _ => 0, 1, 2, .closed (-1) 3, .opened 1, ⟨2, 3, fun i j => ((3 * i : ℤ) - j : ℤ)⟩⟩) rfl rfl
    (by
      intro i hi j hj
      have hi : i < 2 := hi
      have hj : j < 3 := hj
      refine small_double64 _ ?_
      interval_cases i <;> interval_cases j <;> norm_num) u1 u2 u3 w1 w2 w3 d2 u5 d5 w5
    (by
      simp only [Seg.dom, u4, w4]
      refine le_trans ?_ (pow_le_pow_right₀ (by norm_num : (1 : ℝ) ≤ 2) (show 10 ≤ 1018 by norm_num))
      norm_num [chebErr, sum_range_succ])
  exact ⟨v, h1, h2⟩

/-- C190, three variables: the hypotheses are met. -/
example : ∃ v, CS3.evaluateI fl64 ⟨true⟩ ⟨fun _ _ _ => 0, 1, 1, 1, .closed (-1) 3, .opened 1, .closed (-1) 3,
    [⟨2, 2, fun i j => ((3 * i : ℤ) - j : ℤ)⟩, ⟨2, 2, fun i j => ((2 * i : ℤ) + j : ℤ)⟩]⟩ 2 5 2 = .ok (num v) ∧ Double64 v := by
  obtain ⟨⟨u1, u2, u3, u4, u5⟩, ⟨w1, w2, w3, w4, w5⟩, d2, d5⟩ := small_domains
  obtain ⟨v, h1, h2, -⟩ := C190_3d_partial fl64_ieee ⟨true⟩ (s := ⟨fun _ _ _ => 0, 1, 1, 1, .closed (-1) 3, .opened 1, .closed (-1) 3,
      [⟨2, 2, fun i j => ((3 * i : ℤ) - j : ℤ)⟩, ⟨2, 2, fun i j => ((2 * i : ℤ) + j : ℤ)⟩]⟩) rfl
    (by
      intro M hM
      simp only [List.mem_cons, List.not_mem_nil, or_false] at hM
      rcases hM with rfl | rfl <;> exact ⟨rfl, rfl⟩) u1 u2 u3 w1 w2 w3 u1 u2 u3 d2 u5 d5 w5 d2 u5
    (by
      intro i hi j hj k hk
      have hi : i < 2 := hi
      have hj : j < 2 := hj
      have hk : k < 2 := hk
      interval_cases k
      · refine small_double64 _ ?_
        interval_cases i <;> interval_cases j <;> norm_num
      · refine small_double64 _ ?_
        interval_cases i <;> interval_cases j <;> norm_num)
    (by
      simp only [Seg.dom, u4, w4]
      refine le_trans ?_ (pow_le_pow_right₀ (by norm_num : (1 : ℝ) ≤ 2) (show 10 ≤ 1018 by norm_num))
      norm_num [chebErr, sum_range_succ])
  exact ⟨v, h1, h2⟩

/-! ## Where it fails -/

theorem double64_wide : Double64 (3 * 2 ^ 1022 : ℝ) := ⟨3 * 2 ^ 51, 971, by norm_num, by norm_num, by norm_num, by
  rw [show (1022 : ℕ) = 51 + 971 by norm_num, pow_add, show ((2 : ℝ) ^ (971 : ℤ)) = 2 ^ 971 from zpow_natCast _ _]
  push_cast
  ring⟩

theorem ofReal_zero (h : Ieee fl) : Dbl.ofReal fl 0 = num 0 := ofReal_some (ieee_double h double64_zero)

/-- On a segment wider than the largest number every point has the coordinate of the centre. -/
theorem toUnitI_wide (h : Ieee fl) {x : ℝ} (hx : Double64 x) : (Seg.closed (-(3 * 2 ^ 1022) : ℝ) (3 * 2 ^ 1022)).toUnitI fl x = .ok (num 0) := by
  have e1 : fsub fl (num (3 * 2 ^ 1022)) (num (-(3 * 2 ^ 1022))) = pinf := by
    show Dbl.ofReal fl (3 * 2 ^ 1022 + -(-(3 * 2 ^ 1022))) = pinf
    refine ofReal_pinf h ?_
    have h2 : (2 : ℝ) ^ 1024 = 4 * 2 ^ 1022 := by rw [show (1024 : ℕ) = 2 + 1022 by norm_num, pow_add]; norm_num
    have h3 : (0 : ℝ) ≤ 2 ^ 970 := by positivity
    have h4 : (0 : ℝ) ≤ 2 ^ 1022 := by positivity
    unfold overflow64
    rw [h2]
    clear h2
    generalize (2 : ℝ) ^ 1022 = a at *
    generalize (2 : ℝ) ^ 970 = b at *
    linarith only [h3, h4]
  have e2 : fadd fl (num (3 * 2 ^ 1022)) (num (-(3 * 2 ^ 1022))) = num 0 := by
    show Dbl.ofReal fl (3 * 2 ^ 1022 + -(3 * 2 ^ 1022)) = num 0
    rw [add_neg_cancel, ofReal_zero h]
  have e3 : fmul fl (num (1 / 2)) (num 0) = num 0 := by
    show Dbl.ofReal fl (1 / 2 * 0) = num 0
    rw [mul_zero, ofReal_zero h]
  have e4 : fsub fl (num x) (num 0) = num x := by
    show Dbl.ofReal fl (x + -0) = num x
    rw [neg_zero, add_zero, ofReal_some (ieee_double h hx)]
  have e5 : fmul fl (num 0) (num x) = num 0 := by
    show Dbl.ofReal fl (0 * x) = num 0
    rw [zero_mul, ofReal_zero h]
  rw [Seg.toUnitI, e1, e2, e3, e4]
  show Res.ok (fmul fl (num 0) (num x)) = _
  rw [e5]

/-- C190 does not hold on every segment: when the width overflows, `Evaluate` returns the same at all points, whatever the coefficients; for `T_1` it is 0 at the upper bound, not 1. -/
theorem C190_refuted (h : Ieee fl) (B : Build) :
    (∀ s : CS1 ℝ, s.m_x = .closed (-(3 * 2 ^ 1022)) (3 * 2 ^ 1022) → ∀ x y, Double64 x → Double64 y → s.evaluateI fl B x = s.evaluateI fl B y) ∧
    CS1.evaluateI fl B ⟨fun _ => 0, 1, .closed (-(3 * 2 ^ 1022)) (3 * 2 ^ 1022), [0, 1]⟩ (3 * 2 ^ 1022) = .ok (num 0) ∧
    cheb1 1 (fun i => [0, (1 : ℝ)].getD i 0) ((Domain.segment (-(3 * 2 ^ 1022) : ℝ) (3 * 2 ^ 1022)).unit (3 * 2 ^ 1022)) = 1 := by
  have z1 : ∀ x : ℝ, fmul fl (num 0) (num x) = num 0 := fun x => by
    show Dbl.ofReal fl (0 * x) = num 0
    rw [zero_mul, ofReal_zero h]
  refine ⟨fun s hs x y dx dy => ?_, ?_, ?_⟩
  · unfold CS1.evaluateI
    rw [hs, toUnitI_wide h dx, toUnitI_wide h dy]
  · unfold CS1.evaluateI
    simp only [toUnitI_wide h double64_wide, Res.ok_bind]
    rw [collect_ok (fun i => num ([0, (1 : ℝ)].getD i 0)) (fun i hi => ?_), Res.ok_bind]
    · show clenshawI fl [fmul fl (num 0) (num 2), num 1] (num 0) = _
      rw [z1]
      show Res.ok (fadd fl (fsub fl (fmul fl (num 0) (num 1)) (num 0)) (fmul fl (num (1 / 2)) (num 0))) = _
      have z2 : fmul fl (num (1 / 2)) (num 0) = num 0 := by
        show Dbl.ofReal fl (1 / 2 * 0) = num 0
        rw [mul_zero, ofReal_zero h]
      have z3 : fsub fl (num 0) (num 0) = num 0 := by
        show Dbl.ofReal fl (0 + -0) = num 0
        rw [neg_zero, add_zero, ofReal_zero h]
      have z4 : fadd fl (num 0) (num 0) = num 0 := by
        show Dbl.ofReal fl (0 + 0) = num 0
        rw [add_zero, ofReal_zero h]
      rw [z1, z2, z3, z4]
    · have hi : i < 2 := hi
      interval_cases i <;> rfl
  · have hp : (0 : ℝ) < 2 ^ 1022 := by positivity
    have : (Domain.segment (-(3 * 2 ^ 1022) : ℝ) (3 * 2 ^ 1022)).unit (3 * 2 ^ 1022) = 1 := by
      show (2 * (3 * 2 ^ 1022) - -(3 * 2 ^ 1022) - 3 * 2 ^ 1022) / (3 * 2 ^ 1022 - -(3 * 2 ^ 1022)) = (1 : ℝ)
      generalize (2 : ℝ) ^ 1022 = a at *
      field_simp
      ring
    rw [this]
    simp [cheb1, sum_range_succ]

/-- C190 does not hold for every coefficient: the constant series of value `2^1023` on `[-1, 1]` is evaluated to an infinity, for the first coefficient is doubled. -/
theorem C190_refuted_large (h : Ieee fl) (B : Build) {x : ℝ} (dx : Double64 x) (h1 : -1 ≤ x) (h2 : x ≤ 1) :
    CS1.evaluateI fl B ⟨fun _ => 0, 0, .closed (-1) 1, [2 ^ 1023]⟩ x = .ok pinf ∧ Double64 (2 ^ 1023) ∧
      cheb1 0 (fun i => [(2 : ℝ) ^ 1023].getD i 0) ((Domain.segment (-1) 1).unit x) = 2 ^ 1023 := by
  have hd : ∀ n : ℤ, |n| < 100 → Double64 (n : ℝ) := fun n hn => double64_int n (hn.trans (by norm_num))
  refine ⟨?_, ?_, by simp [cheb1]⟩
  · have em : max |(-1 : ℝ)| |1| = 1 := by norm_num
    obtain ⟨τ, t1, -⟩ := toUnitI_ok h (s := .closed (-1) 1) (show (-1 : ℝ) < 1 by norm_num)
      (show Double64 (-1) ∧ Double64 1 from ⟨by simpa using hd (-1) (by norm_num), by simpa using hd 1 (by norm_num)⟩)
      (show max |(-1 : ℝ)| |1| ≤ 2 ^ 1000 ∧ 1 ≤ 2 ^ 1000 * (1 - -1 : ℝ) ∧ max |(-1 : ℝ)| |1| ≤ 2 ^ 1000 * (1 - -1 : ℝ) by
        have : (2 : ℝ) ^ 2 ≤ 2 ^ 1000 := pow_le_pow_right₀ (by norm_num) (by norm_num)
        rw [em]
        generalize (2 : ℝ) ^ 1000 = P at *
        refine ⟨?_, ?_, ?_⟩ <;> linarith) dx ⟨h1, h2⟩
    unfold CS1.evaluateI
    simp only [t1, Res.ok_bind]
    rw [collect_ok (fun i => num ([(2 : ℝ) ^ 1023].getD i 0)) (fun i hi => ?_), Res.ok_bind]
    · show fquot fl (fmul fl (num (2 ^ 1023)) (num 2)) (num 2) = _
      have : fmul fl (num (2 ^ 1023)) (num 2) = pinf := by
        show Dbl.ofReal fl (2 ^ 1023 * 2) = pinf
        refine ofReal_pinf h ?_
        unfold overflow64
        rw [← pow_succ]
        have : (0 : ℝ) ≤ 2 ^ 970 := by positivity
        exact sub_le_self _ this
      rw [this]
      simp [fquot, Dbl.mul, Dbl.rounded]
    · have hi : i < 1 := hi
      interval_cases i
      rfl
  · have := double64_pow (e := 971) (by norm_num) (by norm_num)
    exact ⟨2 ^ 52, 971, by norm_num, by norm_num, by norm_num, by
      rw [show (1023 : ℕ) = 52 + 971 by norm_num, pow_add, show ((2 : ℝ) ^ (971 : ℤ)) = 2 ^ 971 from zpow_natCast _ _]
      push_cast
      ring⟩

end MU
