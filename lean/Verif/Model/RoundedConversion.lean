import Verif.Model.Chebyshev
import Verif.Model.Rounded

/-!
# Conversion of a Chebyshev series to a power series in double arithmetic

Every operation of the expressions is followed by `rnd`. No overflow or underflow, no contraction of a product and a sum into one operation.
-/

namespace MU

/-- `TransformationCoefficient(lj, kj)` in double, /repo/src/MathUtils/ChebyshevSeries1d.h:138-154, /repo/src/MathUtils/ChebyshevSeries2d.h:196-212,
/repo/src/MathUtils/ChebyshevSeries3d.h:268-284. `pow(-1, k)` is exact; `pow(2., kj - 1.)` and the entries of the table behind `Factorial` are taken as the
doubles nearest to the exact values. -/
noncomputable def transformationCoefficientR (rnd : ℝ → ℝ) (lj kj : Nat) : ℝ :=
  let ljkj_plus := lj + kj
  if lj = 0 ∧ kj = 0 then 1
  else if ljkj_plus % 2 = 1 then 0
  else
    let floor_plus := ljkj_plus / 2
    let floor_minus := (lj - kj) / 2
    rnd (rnd (rnd ((-1) ^ floor_minus * rnd (2 ^ kj / 2)) * (lj : ℝ)) *
      rnd (rnd (fact (floor_plus - 1)) / rnd (rnd (fact floor_minus) * rnd (fact kj))))

/-- `Compute_bi` in double, /repo/src/MathUtils/ChebyshevSeries1d.h:111-133. -/
noncomputable def CS1.computeBiR (rnd : ℝ → ℝ) (B : Build) (s : CS1 ℝ) : Res (List ℝ) :=
  if s.m_order_x > 18 then .exits 0
  else
    forRange 0 (s.m_order_x + 1) (fun i bi =>
      forRange i (s.m_order_x + 1) (fun r bi => do
        let lambda_ri := transformationCoefficientR rnd r i
        let a ← eAt B s.m_ai r
        let b ← eAt B bi i
        eSet B bi i (rnd (b + rnd (a * lambda_ri)))) bi) (List.replicate (s.m_order_x + 1) 0)

/-- `Compute_bij` in double, /repo/src/MathUtils/ChebyshevSeries2d.h:161-191. -/
noncomputable def CS2.computeBijR (rnd : ℝ → ℝ) (B : Build) (s : CS2 ℝ) : Res (Mat ℝ) :=
  if s.m_order_x > 18 ∨ s.m_order_y > 18 then .exits 0
  else
    forRange 0 (s.m_order_x + 1) (fun i bij =>
      forRange 0 (s.m_order_y + 1) (fun j bij =>
        forRange i (s.m_order_x + 1) (fun r bij => do
          let lambda_ri := transformationCoefficientR rnd r i
          let tmp ← forRange j (s.m_order_y + 1) (fun t tmp => do
            let lambda_sj := transformationCoefficientR rnd t j
            let a ← s.m_aij.at' B r t
            return rnd (tmp + rnd (a * lambda_sj))) 0
          let b ← bij.at' B i j
          bij.set B i j (rnd (b + rnd (tmp * lambda_ri)))) bij) bij) (Mat.zero (s.m_order_x + 1) (s.m_order_y + 1))

/-- `Compute_bijk` in double, /repo/src/MathUtils/ChebyshevSeries3d.h:220-263. -/
noncomputable def CS3.computeBijkR (rnd : ℝ → ℝ) (B : Build) (s : CS3 ℝ) : Res (List (Mat ℝ)) :=
  if s.m_order_x > 18 ∨ s.m_order_y > 18 ∨ s.m_order_z > 18 then .exits 0
  else
    forRange 0 (s.m_order_x + 1) (fun i bijk =>
      forRange 0 (s.m_order_y + 1) (fun j bijk =>
        forRange 0 (s.m_order_z + 1) (fun k bijk =>
          forRange i (s.m_order_x + 1) (fun r bijk => do
            let lambda_ri := transformationCoefficientR rnd r i
            let tmp_1 ← forRange j (s.m_order_y + 1) (fun q tmp_1 => do
              let lambda_sj := transformationCoefficientR rnd q j
              let tmp_2 ← forRange k (s.m_order_z + 1) (fun t tmp_2 => do
                let lambda_tk := transformationCoefficientR rnd t k
                let a ← cubeGet B s.m_aijk r q t
                return rnd (tmp_2 + rnd (a * lambda_tk))) 0
              return rnd (tmp_1 + rnd (tmp_2 * lambda_sj))) 0
            let b ← cubeGet B bijk i j k
            cubeSet B bijk i j k (rnd (b + rnd (tmp_1 * lambda_ri)))) bijk) bijk) bijk)
      (List.replicate (s.m_order_z + 1) (Mat.zero (s.m_order_x + 1) (s.m_order_y + 1)))

end MU
