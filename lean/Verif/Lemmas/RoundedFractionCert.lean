import Verif.Lemmas.RoundedFraction

/-!
# Rounding errors of the continued fractions of Ei_approximation: certificates

Written by tools/expint/genround.py. The kernel evaluates the checks.
-/

namespace MU.ExpInt
open PolyCheck

/-- Weights for `ei12`, to be multiplied by `c^2` and 1. -/
def ei12W : List (ℤ × ℤ) := [(4757, 211), (22627, 45), (22627, 45), (4000, 250), (26909, 38), (5657, 177), (16000, 63), (3364, 298), (3364, 298)]

theorem ei12_err : certOn 27 1 (cfErr (10 ^ 25) (1000 * 10 ^ 25) ei12A.tail ei12B (ei12W.map fun w => (w.1 * 10 ^ 50, w.2))) (pscale (1000 * 10 ^ 25) (pmul (cfPair (10 ^ 25) ei12A.tail ei12B).2 (cfPair (10 ^ 25) ei12A.tail ei12B).2)) 1 6 [] 12 = true := by decide +kernel

theorem ei12_crude : certOn 3000000 1 (cfCrude (10 ^ 25) ei12A.tail ei12B) (pmul (cfPair (10 ^ 25) ei12A.tail ei12B).2 (cfPair (10 ^ 25) ei12A.tail ei12B).2) 1 6 [] 12 = true := by decide +kernel

theorem ei12_size : certOn 6000 1 (cfSize (10 ^ 25) ei12A.tail ei12B).2 (pscale 1 (cfPair (10 ^ 25) ei12A.tail ei12B).2) 1 6 [] 12 = true := by decide +kernel

theorem ei12_value : certOn 3 1 (psub (pscale 20 (cfNum (10 ^ 25) ei12A ei12B)) (pscale (23) (cfDen (10 ^ 25) ei12A ei12B))) (pscale 1 (cfDen (10 ^ 25) ei12A ei12B)) 1 6 [] 12 = true := by decide +kernel

/-- Weights for `ei24`, to be multiplied by `c^2` and 1. -/
def ei24W : List (ℤ × ℤ) := [(9514, 106), (26909, 38), (16000, 63), (22627, 45), (26909, 38), (6727, 149), (22627, 45), (2828, 354), (9514, 106)]

theorem ei24_err : certOn 9 10 (cfErr (10 ^ 22) (1000 * 10 ^ 22) ei24A.tail ei24B (ei24W.map fun w => (w.1 * 10 ^ 44, w.2))) (pscale (1000 * 10 ^ 22) (pmul (cfPair (10 ^ 22) ei24A.tail ei24B).2 (cfPair (10 ^ 22) ei24A.tail ei24B).2)) 1 12 [] 24 = true := by decide +kernel

theorem ei24_crude : certOn 200000 1 (cfCrude (10 ^ 22) ei24A.tail ei24B) (pmul (cfPair (10 ^ 22) ei24A.tail ei24B).2 (cfPair (10 ^ 22) ei24A.tail ei24B).2) 1 12 [] 24 = true := by decide +kernel

theorem ei24_size : certOn 1500 1 (cfSize (10 ^ 22) ei24A.tail ei24B).2 (pscale 1 (cfPair (10 ^ 22) ei24A.tail ei24B).2) 1 12 [] 24 = true := by decide +kernel

theorem ei24_value : certOn 3 1 (psub (pscale 20 (cfNum (10 ^ 22) ei24A ei24B)) (pscale (23) (cfDen (10 ^ 22) ei24A ei24B))) (pscale 1 (cfDen (10 ^ 22) ei24A ei24B)) 1 12 [] 24 = true := by decide +kernel

/-- Weights for `eiInf`, to be multiplied by `c^2` and 1. -/
def eiInfW : List (ℤ × ℤ) := [(22627, 45), (19027, 53), (16000, 63), (11314, 89), (38055, 27), (5657, 177), (13454, 75), (420, 2381), (215269, 5)]

theorem eiInf_err : certFrom 7 10 (cfErr (10 ^ 20) (1000 * 10 ^ 20) eiInfA.tail eiInfB (eiInfW.map fun w => (w.1 * 10 ^ 40, w.2))) (pscale (1000 * 10 ^ 20) (pmul (cfPair (10 ^ 20) eiInfA.tail eiInfB).2 (cfPair (10 ^ 20) eiInfA.tail eiInfB).2)) 1 24 [] = true := by decide +kernel

theorem eiInf_crude : certFrom 20000000000 1 (cfCrude (10 ^ 20) eiInfA.tail eiInfB) (pmul (cfPair (10 ^ 20) eiInfA.tail eiInfB).2 (cfPair (10 ^ 20) eiInfA.tail eiInfB).2) 1 24 [] = true := by decide +kernel

theorem eiInf_size : certFrom 500000 1 (cfSize (10 ^ 20) eiInfA.tail eiInfB).2 (pscale 1 (cfPair (10 ^ 20) eiInfA.tail eiInfB).2) 1 24 [] = true := by decide +kernel

theorem eiInf_value : certFrom 1 1 (psub (pscale 10 (cfNum (10 ^ 20) eiInfA eiInfB)) (pscale (11) (cfDen (10 ^ 20) eiInfA eiInfB))) (pscale 1 (cfDen (10 ^ 20) eiInfA eiInfB)) 1 24 [] = true := by decide +kernel

theorem ei6_num_low : certOn 1 1 [182000000000 * (2 * 3 ^ 9 * 10 ^ 20)] (pscale (-1) (chebInt ei6P)) 1 0 [3] 6 = true := by decide +kernel

theorem ei6_den_low : certOn 1 1 [14970000000 * (2 * 3 ^ 9 * 10 ^ 20)] (pscale (-1) (chebInt ei6Q)) 1 0 [] 6 = true := by decide +kernel

theorem ei6_ratio : certOn 15 1 (chebInt ei6P) (pscale (-1) (chebInt ei6Q)) 1 0 [] 6 = true := by decide +kernel

end MU.ExpInt
