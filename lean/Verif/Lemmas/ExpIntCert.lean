import Verif.Lemmas.ExpIntBranch

/-!
# Certificates for the exponential integrals

Generated by `tools/expint`. The tables of coefficients as integers, the rational functions they define, and the polynomial inequalities that bound
the residuals. A primed table is the published one where the table of the code differs from it.
-/

set_option maxRecDepth 100000

namespace MU.ExpInt
open PolyCheck

/-! ## Tables -/

/-- `pj` of `Ei_approximation` below 6, times `10^20`. -/
def ei6P : List ℤ :=
  [-41658081333604994241879000000000,
   1217769813619959467758000000000,
   -2530182398459901934885800000000,
   31984354235237738511048000000,
   -35377809694431133484800000000,
   -31398660864247265862050000,
   -142998415720916103800640000,
   -1428707250019700577737600,
   -128312206592620006781550,
   -1296370260247483002859]

/-- `qj` of `Ei_approximation` below 6, times `10^20`. -/
def ei6Q : List ℤ :=
  [-17934749837151009723371000000000,
   9890093426248174943988600000000,
   -2898627269655449534265800000000,
   542296179844729550118620000000,
   -70108568774215954065376000000,
   6469883095657642858765300000,
   -426484348121771614054830000,
   19418469440759880361415000,
   -556484705433690828468190,
   7688671875000000000000]

/-- `alphaj` of `Ei_approximation` on [6, 12), times `10^25`. -/
def ei12A : List ℤ :=
  [9981193787537396413219000,
   95651345919786307742170000,
   -39888507303905410579120000,
   112001102422729745152300000,
   -301576186384059335916500000,
   194560377953928181043900000,
   105297639245901515542200000,
   -242110695698065351155000000,
   -23783728828157252441240000,
   -26459777930771472378060000]

/-- `betaj` of `Ei_approximation` on [6, 12), times `10^25`. -/
def ei12B : List ℤ :=
  [12498848227124478914400000,
   -2369210235636181001661000000,
   4731097187816050252967000000,
   285239754811924870014700000,
   7608194509086645763123000000,
   -87914010548754389250290000,
   3697412299772985940785000000,
   46441859325832869426500000,
   1598517957704779356479]

/-- `alphaj` on [6, 12) in the published table, times `10^25`. -/
def ei12A' : List ℤ :=
  [9981193787537396413219000,
   95651345919786307742170000,
   -39888507303905410579120000,
   112001102422729745152300000,
   -301576186384059335916500000,
   194560377953928181043900000,
   105297639245901515542200000,
   -242110695698065351155000000,
   -23783728828157252441240000,
   -26456777930771472378060000]

/-- `alphaj` of `Ei_approximation` on [12, 24), times `10^22`. -/
def ei24A : List ℤ :=
  [9999933106160568739091,
   -18450862323912786745240,
   265257581845279981985500,
   249548773040205944062600,
   -332361257934396228433300,
   -9134835699998742552432,
   -210574079954804045039400,
   -100064191398928482996100,
   -186009212172643758225300,
   -16477211724634631400420]

/-- `betaj` of `Ei_approximation` on [12, 24), times `10^22`. -/
def ei24B : List ℤ :=
  [10015338520453426978180,
   -109355619539109124392400,
   1991004470817742470726000,
   11928324239686010069850000,
   442941317833792840116100,
   2538819315630708031713000,
   599493232566740735525500,
   640380040535241555132400,
   979240359921729029684000]

/-- `alphaj` of `Ei_approximation` above 24, times `10^20`. -/
def eiInfA : List ℤ :=
  [100000000000000485503,
   -300000000320981265753,
   -500006640413131002475,
   -706810977895029358836,
   -1528566236369296368390,
   -763147701620253630855,
   -2797985286243053893400,
   -1819496649298689064550,
   -22312767077763240955000,
   17533880126546597239000]

/-- `betaj` of `Ei_approximation` above 24, times `10^20`. -/
def eiInfB : List ℤ :=
  [199999999999048104167,
   -299999894040324959612,
   -799243595776339741065,
   -1201877635471547432380,
   7048318471804246759880,
   11717922050208645528700,
   13779039023574799879300,
   397277109100414518365,
   3978459771674147208400000]

/-- `pj` of `E1_approximation` below 1, times `10^21`. -/
def e1aP : List ℤ :=
  [-148151021025757508380860000,
   150260594764369824207370000,
   89904972007457256553251000,
   15924175980637303639884000,
   2150067290809291812320900,
   116695526697344610833680,
   5019678518543984379102]

/-- `qj` of `E1_approximation` below 1, times `10^21`. -/
def e1aQ : List ℤ :=
  [256664934848971173192680000,
   184340700633536773592980000,
   52440529172056355429883000,
   8125803517476873575986600,
   750431639071039366241650,
   40205465640027706061433,
   1000000000000000000000]

/-- `pj` of `E1_approximation` on [1, 4), times `10^29`. -/
def e1bP : List ℤ :=
  [1737331760720576030932,
   99999896423476130684370000000,
   1487967702840464066613000000000,
   7633628873405946890896000000000,
   16981067637642383827050000000000,
   17006329783115161293280000000000,
   7246689782858597021199000000000,
   1107326627786317438090000000000,
   38285731210224771691080000000]

/-- `pj` on [1, 4) in the published table, times `10^29`. -/
def e1bP' : List ℤ :=
  [1737331760720576030932,
   99999896423476130684370000000,
   1487967702840464066613000000000,
   7633628843705946890896000000000,
   16981067637642383827050000000000,
   17006329783115161293280000000000,
   7246689782858597021199000000000,
   1107326627786831743809000000000,
   38285731210224771691080000000]

/-- `qj` of `E1_approximation` on [1, 4), times `10^29`. -/
def e1bQ : List ℤ :=
  [100000000000000000000000000000,
   1587964570758947927903000000000,
   9021658450529372642314000000000,
   23425735047176251530530000000000,
   29531363356779085174230000000000,
   17757281867172897996770000000000,
   4662179610356861756812000000000,
   434483633550928208336000000000,
   8258160008564488034698000000]

/-- `pj` of `E1_approximation` above 4, times `10^23`. -/
def e1cP : List ℤ :=
  [-99999999999999999087819,
   -5219963258852257248103900,
   -106117772635503317668710000,
   -1081685239909591562249800000,
   -5934684153883711917235600000,
   -17503273087497081314708000000,
   -26181454937205639647381000000,
   -17283375773777593926828000000,
   -3584619874399690430869500000,
   -13276881505637444622987000]

/-- `qj` of `E1_approximation` above 4, times `10^23`. -/
def e1cQ : List ℤ :=
  [100000000000000000000000,
   5419963258852255941492400,
   116357699153208480354590000,
   1284280858662729736599800000,
   7923178764527904369871800000,
   27858134710520842139357000000,
   54616842050691155735758000000,
   55903756210022864003380000000,
   55989762083608489777411000000,
   3914785624555634562707800000]

/-- `qj` above 4 in the published table, times `10^23`. -/
def e1cQ' : List ℤ :=
  [100000000000000000000000,
   5419963258852255941492400,
   116357699153208480354590000,
   1284280858662729736599800000,
   7923178794527904369871800000,
   27858134710520842139357000000,
   54616842050691155735758000000,
   55903756210022864003380000000,
   25989762083608489777411000000,
   3914785624555634562707800000]

/-! ## The rational functions -/

/-- The continued fraction `b1 / (a1 + x + b2 / (a2 + x + ...))` as a quotient of polynomials; the coefficients are scaled by `c`. -/
def cfPair (c : ℤ) : List ℤ → List ℤ → List ℤ × List ℤ
  | a :: as, b :: bs => let r := cfPair c as bs; (pscale b r.2, padd (pmul [a, c] r.2) (pscale c r.1))
  | _, _ => ([0], [1])

/-- `a0` plus the continued fraction: numerator. -/
def cfNum (c : ℤ) (A B : List ℤ) : List ℤ := padd (pscale (A.headD 0) (cfPair c A.tail B).2) (pscale c (cfPair c A.tail B).1)

/-- `a0` plus the continued fraction: denominator. -/
def cfDen (c : ℤ) (A B : List ℤ) : List ℤ := pscale c (cfPair c A.tail B).2

/-- `3^j` times the shifted Chebyshev polynomial `T_j(2 (x / 6) - 1)`. -/
def chebPoly : Nat → List ℤ
  | 0 => [1]
  | 1 => [-3, 1]
  | n + 2 => psub (pscale 2 (pmul [-3, 1] (chebPoly (n + 1)))) (pscale 9 (chebPoly n))

/-- `2 * 3^9` times the Chebyshev sum of degree 9. -/
def chebInt (c : List ℤ) : List ℤ :=
  (List.range 9).foldl (fun s j => padd s (pscale (2 * c.getD (j + 1) 0 * 3 ^ (8 - j)) (chebPoly (j + 1)))) [c.headD 0 * 3 ^ 9]

/-- Above 4: `(1 + (1/x) p/q) / x` with `p`, `q` sums of inverse powers. -/
def tailN (P Q : List ℤ) : List ℤ := padd (0 :: Q.reverse) P.reverse
/-- Its denominator. -/
def tailM (Q : List ℤ) : List ℤ := 0 :: 0 :: Q.reverse

/-- `(x - x0) P` below 6. -/
def ei6N : List ℤ := pmul [-372507410781366634461991866580, 10 ^ 30] (chebInt ei6P)
/-- Its denominator. -/
def ei6M : List ℤ := pscale (10 ^ 30) (chebInt ei6Q)

/-- Numerator for `ei12`. -/
def ei12N : List ℤ := cfNum (10 ^ 25) ei12A ei12B
/-- Denominator for `ei12`. -/
def ei12M : List ℤ := 0 :: cfDen (10 ^ 25) ei12A ei12B

/-- Numerator for `ei12'`. -/
def ei12N' : List ℤ := cfNum (10 ^ 25) ei12A' ei12B
/-- Denominator for `ei12'`. -/
def ei12M' : List ℤ := 0 :: cfDen (10 ^ 25) ei12A' ei12B

/-- Numerator for `ei24`. -/
def ei24N : List ℤ := cfNum (10 ^ 22) ei24A ei24B
/-- Denominator for `ei24`. -/
def ei24M : List ℤ := 0 :: cfDen (10 ^ 22) ei24A ei24B

/-- Numerator for `eiInf`. -/
def eiInfN : List ℤ := padd (0 :: cfDen (10 ^ 20) eiInfA eiInfB) (cfNum (10 ^ 20) eiInfA eiInfB)
/-- Denominator for `eiInf`. -/
def eiInfM : List ℤ := 0 :: 0 :: cfDen (10 ^ 20) eiInfA eiInfB

/-! ## Certificates -/

theorem ei12_res : certOn 1 10000000000000000 (resEi ei12N' ei12M') (pmul ei12M' ei12M') 2 12 [15, 18] 24 = true := by decide +kernel

theorem ei12_pos : (decide (0 < (1 : ℤ)) && decide ((6 : ℤ) < 12) && checkOn (psub (pscale (1) ei12M') [1]) 1 6 [] 12) = true := by decide +kernel

theorem ei12_pos_code : (decide (0 < (1 : ℤ)) && decide ((6 : ℤ) < 12) && checkOn (psub (pscale (1) ei12M) [1]) 1 6 [] 12) = true := by decide +kernel

theorem ei12_cmp : certOn 25 1000000000000 (psub (pmul ei12N ei12M') (pmul ei12N' ei12M)) (pscale (1) (pmul ei12N' ei12M)) 1 6 [] 12 = true := by decide +kernel

theorem ei24_res : certOn 1 100000000000000000 (resEi ei24N ei24M) (pmul ei24M ei24M) 2 24 [27, 30, 36, 42] 48 = true := by decide +kernel

theorem ei24_pos : (decide (0 < (1 : ℤ)) && decide ((12 : ℤ) < 24) && checkOn (psub (pscale (1) ei24M) [1]) 1 12 [] 24) = true := by decide +kernel

theorem eiInf_res : certFrom 1 10000000000000000 (resEi eiInfN eiInfM) (pmul eiInfM eiInfM) 1 24 [30, 36, 48] = true := by decide +kernel

theorem eiInf_pos : (decide (0 < (1 : ℤ)) && checkFrom (psub (pscale (1) eiInfM) [1]) 1 24 []) = true := by decide +kernel

theorem ei6_res : certOn 1 10000000000000000 (resZero 45 (expm1 45) ei6N ei6M) (pscale (Nat.factorial 45) (pmul ei6M ei6M)) 1 0 [] 6 = true := by decide +kernel

theorem ei6_pos : (decide (0 < (1 : ℤ)) && decide ((0 : ℤ) < 6) && checkOn (psub (pscale (-1) ei6M) [1]) 1 0 [] 6) = true := by decide +kernel

theorem e1a_res : certOn 1 100000000000000000 (resZero 21 (palt (expm1 21)) e1aP e1aQ) (pscale (Nat.factorial 21) (pmul e1aQ e1aQ)) 1 0 [] 1 = true := by decide +kernel

theorem e1a_pos : (decide (0 < (1 : ℤ)) && decide ((0 : ℤ) < 1) && checkOn (psub (e1aQ) [1]) 1 0 [] 1) = true := by decide +kernel

theorem e1b_res : certOn 2 100000000000000000 (resE1 e1bP'.reverse e1bQ.reverse) (pmul e1bQ.reverse e1bQ.reverse) 16 16 [19, 22, 28, 40] 64 = true := by decide +kernel

theorem e1b_pos : (decide (0 < (1 : ℤ)) && decide ((1 : ℤ) < 4) && checkOn (psub (e1bQ.reverse) [1]) 1 1 [] 4) = true := by decide +kernel

theorem e1b_cmp : certOn 15 10000000000 (psub e1bP.reverse e1bP'.reverse) e1bP'.reverse 1 1 [] 4 = true := by decide +kernel

theorem e1c_res : certFrom 1 1000000000000000000 (resE1 (tailN e1cP e1cQ') (tailM e1cQ')) (pmul (tailM e1cQ') (tailM e1cQ')) 1 4 [8, 16] = true := by decide +kernel

theorem e1c_pos : (decide (0 < (1 : ℤ)) && checkFrom (psub (tailM e1cQ') [1]) 1 4 []) = true := by decide +kernel

theorem e1c_pos_code : (decide (0 < (1 : ℤ)) && checkFrom (psub (tailM e1cQ) [1]) 1 4 []) = true := by decide +kernel

theorem e1c_posN : (decide (0 < (1 : ℤ)) && checkFrom (psub (tailN e1cP e1cQ') [1]) 1 4 []) = true := by decide +kernel

theorem e1c_cmp : certFrom 93 100000 (psub (pmul (tailN e1cP e1cQ) (tailM e1cQ')) (pmul (tailN e1cP e1cQ') (tailM e1cQ))) (pmul (tailN e1cP e1cQ') (tailM e1cQ)) 1 4 [] = true := by decide +kernel

end MU.ExpInt
