import io,contextlib
with contextlib.redirect_stdout(io.StringIO()):
    from gencert import *
    from gencert import out as _o
o=[]
def bd(name,N,M,nm,k,dg=26):
    r=F(pev(N,F(k)))/F(pev(M,F(k)))
    q=10**dg
    lo=(r*q).__floor__(); hi=lo+1
    o.append(f"theorem {name} : (({lo} : ℤ) : ℝ) / (10 ^ {dg} : ℤ) ≤ rat {nm} {k} ∧ rat {nm} {k} ≤ (({hi} : ℤ) : ℝ) / (10 ^ {dg} : ℤ) :=\n  rat_bounds (k := {k}) (by norm_num) (by decide +kernel)\n")
bd("e1b_at_4",Pbc,Qb,"e1bP'.reverse e1bQ.reverse",4)
bd("e1c_at_4",Nc,Mc,"(tailN e1cP e1cQ') (tailM e1cQ')",4)
bd("e1b_at_1",Pbc,Qb,"e1bP'.reverse e1bQ.reverse",1)
bd("e1a_at_1",P0,Q0,"e1aP e1aQ",1)
bd("e1a_at_0",P0,Q0,"e1aP e1aQ",0)
bd("ei6_at_0",U,V,"ei6N ei6M",0)
bd("ei6_at_6",U,V,"ei6N ei6M",6)
bd("ei12_at_6",N12,M12,"ei12N' ei12M'",6)
bd("ei12_at_12",N12,M12,"ei12N' ei12M'",12)
bd("ei24_at_12",N24,M24,"ei24N ei24M",12)
bd("ei24_at_24",N24,M24,"ei24N ei24M",24)
bd("eiInf_at_24",NI,MI,"eiInfN eiInfM",24)
bd("ei12_code_at_6",N12r,M12r,"ei12N ei12M",6)
bd("e1c_code_at_4",Nr,Mr,"(tailN e1cP e1cQ) (tailM e1cQ)",4)
hdr='''import Verif.Lemmas.ExpIntCert

/-!
# Values at the ends of the ranges

Generated by `tools/expint`: the rational functions where two ranges meet, and the exponentials and logarithms needed there.
-/

set_option maxRecDepth 100000

namespace MU.ExpInt
open PolyCheck

/-- The value of an integer polynomial at an integer. -/
def pevZ : List ℤ → ℤ → ℤ
  | [], _ => 0
  | a :: l, k => a + k * pevZ l k

theorem pevZ_cast (l : List ℤ) (k : ℤ) : pev l (k : ℝ) = (pevZ l k : ℝ) := by
  induction l with
  | nil => simp [pev, pevZ]
  | cons a l ih => rw [pev, pevZ, ih]; push_cast; ring

theorem rat_bounds {N M : List ℤ} {x : ℝ} {k d lo hi : ℤ} (hx : x = (k : ℝ)) (h : 0 < d ∧ pevZ M k ≠ 0 ∧ lo * (pevZ M k * pevZ M k) ≤ d * (pevZ N k * pevZ M k) ∧
    d * (pevZ N k * pevZ M k) ≤ hi * (pevZ M k * pevZ M k)) : (lo : ℝ) / d ≤ rat N M x ∧ rat N M x ≤ (hi : ℝ) / d := by
  obtain ⟨h1, h2, h3, h4⟩ := h
  have h1' : (0 : ℝ) < d := by exact_mod_cast h1
  have h2' : (pevZ M k : ℝ) ≠ 0 := by exact_mod_cast h2
  have h3' : (lo : ℝ) * (pevZ M k * pevZ M k) ≤ d * (pevZ N k * pevZ M k) := by exact_mod_cast h3
  have h4' : (d : ℝ) * (pevZ N k * pevZ M k) ≤ hi * (pevZ M k * pevZ M k) := by exact_mod_cast h4
  have hm : (0 : ℝ) < pevZ M k * pevZ M k := mul_self_pos.2 h2'
  have e : rat N M x = (pevZ N k * pevZ M k) / (pevZ M k * pevZ M k) := by
    rw [rat, hx, pevZ_cast, pevZ_cast]
    field_simp
  rw [e]
  constructor
  · rw [div_le_div_iff₀ h1' hm]; linarith
  · rw [div_le_div_iff₀ hm h1']; linarith

'''
ftr='''/-- The zero of `Ei` used by the code. -/
noncomputable def eiX0 : ℝ := 0.372507410781366634461991866580

theorem exp_neg_one_bounds : 0.36787944117144232159552 ≤ Real.exp (-1) ∧ Real.exp (-1) ≤ 0.36787944117144232159553 := by
  have h := exp_taylor (x := -1) (n := 25) (by norm_num)
  rw [abs_le] at h
  simp only [Finset.sum_range_succ, Finset.sum_range_zero, Nat.factorial] at h
  norm_num at h
  constructor <;> linarith [h.1, h.2]

theorem exp_six_bounds : 403.42879349273512260838 ≤ Real.exp 6 ∧ Real.exp 6 ≤ 403.42879349273512260839 := by
  have h := exp_taylor (x := 6) (n := 50) (by norm_num)
  rw [abs_le] at h
  simp only [Finset.sum_range_succ, Finset.sum_range_zero, Nat.factorial] at h
  norm_num at h
  constructor <;> linarith [h.1, h.2]

theorem log_bounds {x lo hi : ℝ} (n : Nat) (t : ℝ) (h0 : 0 ≤ t) (h1 : t < 1) (hx : x = (1 + t) / (1 - t))
    (hlo : lo ≤ 2 * ∑ i ∈ Finset.range n, t ^ (2 * i + 1) / (2 * i + 1))
    (hhi : 2 * (∑ i ∈ Finset.range n, t ^ (2 * i + 1) / (2 * i + 1) + t ^ (2 * n + 1) / (1 - t ^ 2)) ≤ hi) : lo ≤ Real.log x ∧ Real.log x ≤ hi := by
  have h2 := Real.sum_range_le_log_div h0 h1 n
  have h3 := Real.log_div_le_sum_range_add h0 h1 n
  rw [hx]
  constructor <;> linarith

theorem log_two_bounds : 0.69314718055994530941723 ≤ Real.log 2 ∧ Real.log 2 ≤ 0.69314718055994530941724 := by
  refine log_bounds 25 (1 / 3) (by norm_num) (by norm_num) (by norm_num) ?_ ?_
  · simp only [Finset.sum_range_succ, Finset.sum_range_zero]; norm_num
  · simp only [Finset.sum_range_succ, Finset.sum_range_zero]; norm_num

theorem log_x0_bounds : 0.29435116608539654242680 ≤ Real.log (1 / (2 * eiX0)) ∧ Real.log (1 / (2 * eiX0)) ≤ 0.29435116608539654242681 := by
  refine log_bounds 16 (6374629460931668276900406671/43625370539068331723099593329) (by norm_num) (by norm_num) (by norm_num [eiX0]) ?_ ?_
  · simp only [Finset.sum_range_succ, Finset.sum_range_zero]; norm_num
  · simp only [Finset.sum_range_succ, Finset.sum_range_zero]; norm_num

theorem log_r6_bounds : 0.0066690936336156149875849 ≤ Real.log (6 / (16 * eiX0)) ∧ Real.log (6 / (16 * eiX0)) ≤ 0.0066690936336156149875850 := by
  refine log_bounds 8 (124629460931668276900406671/37375370539068331723099593329) (by norm_num) (by norm_num) (by norm_num [eiX0]) ?_ ?_
  · simp only [Finset.sum_range_succ, Finset.sum_range_zero]; norm_num
  · simp only [Finset.sum_range_succ, Finset.sum_range_zero]; norm_num

theorem log_eiX0 : Real.log eiX0 = -Real.log 2 - Real.log (1 / (2 * eiX0)) := by
  have h : (0 : ℝ) < eiX0 := by norm_num [eiX0]
  rw [one_div, Real.log_inv, Real.log_mul (by norm_num) h.ne']
  ring

theorem log_six_eiX0 : Real.log (6 / eiX0) = 4 * Real.log 2 + Real.log (6 / (16 * eiX0)) := by
  have h : (0 : ℝ) < eiX0 := by norm_num [eiX0]
  have e : (6 : ℝ) / eiX0 = 2 ^ 4 * (6 / (16 * eiX0)) := by field_simp; norm_num
  rw [e, Real.log_mul (by norm_num) (by positivity), Real.log_pow]
  norm_num

end MU.ExpInt
'''
open('/verif/lean/Verif/Lemmas/ExpIntPoints.lean','w').write(hdr+"\n".join(o)+"\n"+ftr)
