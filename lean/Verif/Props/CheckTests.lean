import Verif.Lemmas.Pivot
import Verif.Props.CheckNear

/-!
# C78: the moments of test/checkmom.cpp
-/

namespace Unc.Props
open Unc SMap HessGrad Mom Check MeasureTheory Spec

/-- Moments away from the impossible ones are accepted by every solver whose error is small against the distance, with every threshold. -/
theorem C78_margin {ε N k : ℝ} {solve : (ℕ → ℕ → ℝ) → Option (List ℝ)} (hs : NearSolver ε solve) (junk : ℕ → ℕ → ℝ) {t : ℝ} (ht : 0 ≤ t)
    (hk0 : 0 < k) (he : ε * N ≤ k) :
    (∀ v, (∀ c : Fin 5 → ℝ, k * ∑ i, c i ^ 2 ≤ ∑ i : Fin 5, ∑ j : Fin 5, c i * c j * seqStd v (i + j)) →
      (∀ c : Fin 5 → ℝ, ∑ i : Fin 5, ∑ j : Fin 5, c i * c j * seqStd v (i + j) ≤ N * ∑ i, c i ^ 2) →
      checkThrow solve junk 0 v t = some (.ok ())) ∧
    ∀ m, (∀ c : Fin 5 → ℝ, k * ∑ i, c i ^ 2 ≤ ∑ i : Fin 5, ∑ j : Fin 5, c i * c j * seqCentral m (i + j)) →
      (∀ c : Fin 5 → ℝ, ∑ i : Fin 5, ∑ j : Fin 5, c i * c j * seqCentral m (i + j) ≤ N * ∑ i, c i ^ 2) →
      checkThrow solve junk 1 m t = some (.ok ()) :=
  ⟨fun v h1 h2 => near_margin hs (fun _ _ h => hk_std v junk h) ht (fun c => by rw [hankel_form]; exact h2 c)
      (fun c => by rw [hankel_form]; exact h1 c) hk0 he,
    fun m h1 h2 => near_margin hs (fun _ _ h => hk_central m junk h) ht (fun c => by rw [hankel_form]; exact h2 c)
      (fun c => by rw [hankel_form]; exact h1 c) hk0 he⟩

/-- a decimal number -/
def dec (m : ℤ) (e : ℕ) : ℚ := m / 10 ^ e

/-- the table of test/checkmom.cpp:39-91, the decimal numbers exactly -/
def momTable : List (String × (Fin 6 → ℚ)) :=
  [
   ("anglit", ![dec 0 0, dec 2193750230045810 15, dec 0 0, dec 6307464518351152 15, dec 0 0, dec 2089842143605476 14]),
   ("arcsine", ![dec (-1374677761397093) 30, dec 1500000000000648 15, dec (-2855240539539878) 30, dec 2500000000006676 15, dec (-5710481079079755) 30, dec 4375000000040987 15]),
   ("argus", ![dec (-4203979006661760) 16, dec 2306106586517433 15, dec (-2401538376980557) 15, dec 7714387209802071 15, dec (-1227409781769712) 14, dec 3230234798950539 14]),
   ("beta", ![dec 5656854249492382 16, dec 2400000000000000 15, dec 3232488142567076 15, dec 8857142857142861 15, dec 1697056274847715 14, dec 4160000000000002 14]),
   ("bradford", ![dec 2393417858997477 16, dec 1862753541523876 15, dec 1043117800515642 15, dec 4312283112177668 15, dec 3770708129670418 15, dec 1130784371593390 14]),
   ("chi", ![dec 4056950772626715 16, dec 3059295089399554 15, dec 3909491946824366 15, dec 1739515608079365 14, dec 4052581111168719 14, dec 1569803094595993 13]),
   ("chi2", ![dec 8944271909999155 16, dec 4199999999999998 15, dec 1109089716839895 14, dec 4579999999999998 14, dec 1894396790537821 13, dec 9136399999999995 13]),
   ("cosine", ![dec 0 0, dec 2406237124401720 15, dec 0 0, dec 8033107300728211 15, dec 0 0, dec 3210895347595000 14]),
   ("dgamma", ![dec 0 0, dec 3333333333333335 15, dec 0 0, dec 2333333333333335 14, dec 0 0, dec 2800000000000002 13]),
   ("dweibull", ![dec 0 0, dec 2000000000000000 15, dec 0 0, dec 6000000000000000 15, dec 0 0, dec 2400000000000000 14]),
   ("expon", ![dec 2000000000000000 15, dec 9000000000000002 15, dec 4400000000000001 14, dec 2650000000000001 13, dec 1854000000000000 12, dec 1483300000000000 11]),
   ("exponnorm", ![dec 1152069638313938 15, dec 5875739644970417 15, dec 2109173645528594 14, dec 1112266727355033 13, dec 6366991251413222 13, dec 4260154511396660 12]),
   ("exponweib", ![dec 1443018742885296 16, dec 2916620697907702 15, dec 1421872037810624 15, dec 1399773065059918 14, dec 1420477187613419 14, dec 9446377344841353 14]),
   ("exponpow", ![dec (-7996816282072437) 17, dec 2355798704472346 15, dec (-3353097872836812) 16, dec 7639635809949493 15, dec (-1081109795606021) 15, dec 2965452075728869 14]),
   ("fatiguelife", ![dec 2518518518518572 15, dec 1285185185185180 14, dec 7713580246913584 14, dec 5702400548696919 13, dec 4964241426611791 12, dec 4980798308184728 11]),
   ("foldnorm", ![dec 1879105754584661 17, dec 2940610025577012 15, dec 3302465491425197 16, dec 1390203748897559 14, dec 4842768251638423 15, dec 8848519792614236 14]),
   ("genlogistic", ![dec 5771840025973655 16, dec 4332675511075347 15, dec 8796559191783279 15, dec 4866244906904266 14, dec 1906728110497943 13, dec 1112419348006789 12]),
   ("gennorm", ![dec 0 0, dec 2305197417170408 15, dec 0 0, dec 7532301401602690 15, dec 0 0, dec 3066472285630520 14]),
   ("genexpon", ![dec 1558209836032660 15, dec 6780542855264994 15, dec 2825765501191453 14, dec 1502538636221089 13, dec 9177347339633483 13, dec 6419732973880627 12]),
   ("gamma", ![dec 1154700538379252 15, dec 5000000000000003 15, dec 1616580753730953 14, dec 7166666666666670 14, dec 3452554609753964 13, dec 1896999999999746 12]),
   ("gengamma", ![dec 5978271350466868 17, dec 2857225515906674 15, dec 6392418424521026 16, dec 1304324619278369 14, dec 6650380648400196 15, dec 8072851306852142 14]),
   ("gilbrat", ![dec 6184877138634218 15, dec 1139363921776051 13, dec 5215977014368461 12, dec 6194384868955223 10, dec 1949406911671746 7, dec 1647082722285542 4]),
   ("gompertz", ![dec 1010125734156103 15, dec 3753230654956891 15, dec 9260001561187531 15, dec 3066070273614897 14, dec 1021833487962241 13, dec 3730641831155965 13]),
   ("gumbel_r", ![dec 1139547099404653 15, dec 5399999999999991 15, dec 1856661598538669 14, dec 9141424734618681 14, dec 4931498916956295 13, dec 3091022944253579 12]),
   ("gumbel_l", ![dec (-1139547099404653) 15, dec 5399999999999991 15, dec (-1856661598538669) 14, dec 9141424734618681 14, dec (-4931498916956295) 13, dec 3091022944253579 12]),
   ("halfnorm", ![dec 9952717464311586 16, dec 3869177303606004 15, dec 9896966346585272 15, dec 3476177935541727 14, dec 1245213878107983 13, dec 4953978799440135 13]),
   ("halfgennorm", ![dec 6327758511185098 16, dec 2841515913822089 15, dec 4870427468322759 15, dec 1527386968129090 14, dec 3963720036171044 14, dec 1234311073294849 13]),
   ("hypsecant", ![dec 0 0, dec 5000000000000003 15, dec 0 0, dec 6100000000000002 14, dec 0 0, dec 1385000000000001 12]),
   ("invgauss", ![dec 3000000000000104 15, dec 1799999999999990 14, dec 1350000000000001 13, dec 1274999999999999 12, dec 1449000000000001 11, dec 1928850000000000 10]),
   ("laplace", ![dec 0 0, dec 5999999999999999 15, dec 0 0, dec 8999999999999997 14, dec 0 0, dec 2519999999999999 12]),
   ("logistic", ![dec 3761250603026065 31, dec 4200000000000001 15, dec 5071868925236719 30, dec 3985714285714286 14, dec 1051209903294108 28, dec 6858000000000001 13]),
   ("loggamma", ![dec (-1035919976644915) 15, dec 5020236578764479 15, dec (-1600684299570175) 14, dec 7636658267260194 14, dec (-3896678157964968) 13, dec 2327567997706484 12]),
   ("maxwell", ![dec 4856928280495909 16, dec 3108163842816296 15, dec 4642979865519745 15, dec 1866866492994786 14, dec 4855583865547229 14, dec 1810911663140202 13]),
   ("moyal", ![dec 1535141590722907 15, dec 7000000000000003 15, dec 2961232004341132 14, dec 1625665970356616 13, dec 1020973368362676 12, dec 7358845112401205 12]),
   ("nakagami", ![dec 6762848427722848 16, dec 3300696203799757 15, dec 6433293472225520 15, dec 2298191741858393 14, dec 7051140073252003 14, dec 2609528751822280 13]),
   ("norm", ![dec 0 0, dec 3000000000000005 15, dec 0 0, dec 1500000000000000 14, dec 0 0, dec 1050000000000000 13]),
   ("norminvgauss", ![dec 1139753528477388 15, dec 6464101615137752 15, dec 2455827541429880 14, dec 1474519052838328 13, dec 9530968562856007 13, dec 7437902700278833 12]),
   ("pearson3", ![dec 1000000000302479 15, dec 4499999999394173 15, dec 1300000000121339 14, dec 5499999999756978 14, dec 2430000000726666 13, dec 1235499999855199 12]),
   ("reciprocal", ![dec 2393417858997484 16, dec 1862753541523877 15, dec 1043117800515645 15, dec 4312283112177676 15, dec 3770708129670429 15, dec 1130784371593392 14]),
   ("rayleigh", ![dec 6311106578190736 16, dec 3245089300687638 15, dec 5997969288502222 15, dec 2179105809171146 14, dec 6481657048417622 14, dec 2388265888542778 13]),
   ("rice", ![dec 4544693815370049 16, dec 2930596525635642 15, dec 4095598493513753 15, dec 1596415545492245 14, dec 3890097958030331 14, dec 1374664823718727 13]),
   ("semicircular", ![dec 0 0, dec 1999999999995189 15, dec 0 0, dec 4999999999999769 15, dec 0 0, dec 1399999999999761 14]),
   ("skewnorm", ![dec (-2391933082665460) 17, dec 3006028161013639 15, dec (-2390817249766078) 16, dec 1509430615515463 14, dec (-2512718210851153) 15, dec 1063756010820516 13]),
   ("t", ![dec 0 0, dec 4000000000000000 15, dec 0 0, dec 3999999999999999 14, dec 0 0, dec 1119999999999999 12]),
   ("trapz", ![dec 6384207794190290 17, dec 2022320860210693 15, dec 3779208079596722 16, dec 5300426892174850 15, dec 1806110727912262 15, dec 1608401975423991 14]),
   ("triang", ![dec 3560874150046195 16, dec 2399999971389194 15, dec 2034785361431682 15, dec 8167134781472743 15, dec 1068256736701236 14, dec 3387196350736040 14]),
   ("truncexpon", ![dec 9634681056331822 16, dec 3132297995454179 15, dec 6261534965445733 15, dec 1642029342804775 14, dec 4018104274985134 14, dec 1049048422930964 13]),
   ("truncnorm", ![dec (-1556661789761165) 16, dec 2275002446880146 15, dec (-9693451338586150) 16, dec 6900292847631023 15, dec (-5091315648191496) 15, dec 2446010477214697 14]),
   ("uniform", ![dec 5481456321918090 32, dec 1800000000000000 15, dec 1117370096036793 31, dec 3857142857142859 15, dec 3718939564401180 31, dec 9000000000000005 15]),
   ("wald", ![dec 3000000000000104 15, dec 1799999999999990 14, dec 1350000000000001 13, dec 1274999999999999 12, dec 1449000000000001 11, dec 1928850000000000 10]),
   ("weibull_min", ![dec 5086956691981936 16, dec 3040664799148528 15, dec 4668289436691043 15, dec 1776138292185108 14, dec 4630433038382748 14, dec 1655949969677136 13]),
   ("weibull_max", ![dec (-1345932950297855) 15, dec 5432257378437289 15, dec (-1875638173411538) 14, dec 8258976108327212 14, dec (-4009375927192170) 13, dec 2179189762992663 12]),
   ("wrapcauchy", ![dec 2339377560439094 31, dec 1361490812261402 15, dec 5587228929520455 31, dec 2042878242450591 15, dec 1150867896773673 30, dec 3230744266235025 15])]

/-- `sigma` of test/checkmom.cpp:19 -/
def momSigma : ℚ := 1432987561283756192783 / 10 ^ 21

/-- the sequence of the moments of a row, multiplied by the powers of the standard deviation -/
def momSeq (s : ℚ) (v : Fin 6 → ℚ) (n : ℕ) : ℚ :=
  if n = 0 then 1 else if n = 1 then 0 else if n = 2 then s ^ 2 else if h : n - 3 < 6 then v ⟨n - 3, h⟩ * s ^ n else 0

/-- the sum of the diagonal -/
def momTrace (s : ℚ) (v : Fin 6 → ℚ) : ℚ := momSeq s v 0 + momSeq s v 2 + momSeq s v 4 + momSeq s v 6 + momSeq s v 8

/-- the smallest eigenvalue is above 10^-13 of the sum of all -/
def momOk (s : ℚ) (v : Fin 6 → ℚ) : Bool :=
  decide (0 < momTrace s v) && pivotsPos 5 fun i j => momSeq s v (i + j) - if i = j then momTrace s v / 10 ^ 13 else 0

theorem table_std : (momTable.all fun r => momOk 1 r.2) = true := by decide +kernel
theorem table_central : (momTable.all fun r => momOk momSigma r.2) = true := by decide +kernel

theorem momOk_accepts {ε : ℝ} (_h0 : 0 ≤ ε) (he : ε ≤ 1 / 10 ^ 13) {solve : (ℕ → ℕ → ℝ) → Option (List ℝ)} (hs : NearSolver ε solve)
    {junk : ℕ → ℕ → ℝ} {s : ℚ} {v : Fin 6 → ℚ} (h : momOk s v = true) {o : ℤ} {mom a : ℕ → ℝ}
    (hM : ∀ i j, j ≤ i → hkMatrix o mom junk i j = a (i + j)) (ha : ∀ n ≤ 8, a n = (momSeq s v n : ℝ)) {t : ℝ} (ht : 0 ≤ t) :
    checkThrow solve junk o mom t = some (.ok ()) := by
  rw [momOk, Bool.and_eq_true, decide_eq_true_eq] at h
  have hT : (0 : ℝ) < (momTrace s v : ℝ) := by exact_mod_cast h.1
  have hk : ∀ c, (momTrace s v : ℝ) / 10 ^ 13 * lenSq c ≤ qform (hankel a) c := fun c => by
    have p := pivots_form 5 _ (fun i j => by simp only [add_comm (i : ℕ), eq_comm (a := i)]) h.2 c
    rw [hankel_form]
    have e : ∑ i : Fin 5, ∑ j : Fin 5, c i * c j * ((momSeq s v (i + j) - if i = j then momTrace s v / 10 ^ 13 else 0 : ℚ) : ℝ) =
        ∑ i : Fin 5, ∑ j : Fin 5, c i * c j * a (i + j) - (momTrace s v : ℝ) / 10 ^ 13 * lenSq c := by
      rw [lenSq, Finset.mul_sum, ← Finset.sum_sub_distrib]
      refine Finset.sum_congr rfl fun i _ => ?_
      have : (momTrace s v : ℝ) / 10 ^ 13 * c i ^ 2 = ∑ j : Fin 5, c i * c j * (if i = j then (momTrace s v : ℝ) / 10 ^ 13 else 0) := by
        simp
        ring
      rw [this, ← Finset.sum_sub_distrib]
      refine Finset.sum_congr rfl fun j _ => ?_
      rw [ha _ (by omega)]
      split_ifs <;> push_cast <;> ring
    rw [e] at p
    linarith
  have hp : HankelPSD a := fun c => by
    have := hk c
    rw [hankel_form] at this
    have := mul_nonneg (div_pos hT (by positivity : (0 : ℝ) < 10 ^ 13)).le (lenSq_nonneg c)
    linarith
  refine near_margin hs hM ht (fun c => trace_bound hp c) hk (by positivity) ?_
  have : a 0 + a 2 + a 4 + a 6 + a 8 = (momTrace s v : ℝ) := by
    rw [ha 0 (by omega), ha 2 (by omega), ha 4 (by omega), ha 6 (by omega), ha 8 (by omega), momTrace]
    push_cast
    ring
  rw [this, div_eq_mul_one_div, mul_comm]
  exact mul_le_mul_of_nonneg_left he hT.le

/-- test/checkmom.cpp passes with every solver of relative error at most 10^-13: for all distributions of its table the standardized moments,
and the central moments with its standard deviation, are accepted. -/
theorem C78_tests {ε : ℝ} (h0 : 0 ≤ ε) (he : ε ≤ 1 / 10 ^ 13) {solve : (ℕ → ℕ → ℝ) → Option (List ℝ)} (hs : NearSolver ε solve)
    (junk : ℕ → ℕ → ℝ) {t : ℝ} (ht : 0 ≤ t) : ∀ r ∈ momTable,
      (∀ v : ℕ → ℝ, (∀ i : Fin 6, v i = (r.2 i : ℝ)) → checkThrow solve junk 0 v t = some (.ok ())) ∧
      ∀ m : ℕ → ℝ, m 0 = (momSigma : ℝ) ^ 2 → (∀ i : Fin 6, m (i + 1) = (r.2 i : ℝ) * (momSigma : ℝ) ^ ((i : ℕ) + 3)) →
        checkThrow solve junk 1 m t = some (.ok ()) := fun r hr => by
  refine ⟨fun v hv => ?_, fun m h2 hm => ?_⟩
  · refine momOk_accepts h0 he hs (List.all_eq_true.1 table_std r hr) (a := seqStd v) (fun _ _ h => hk_std v junk h) (fun n hn => ?_) ht
    match n, hn with
    | 0, _ => simp [seqStd, momSeq]
    | 1, _ => simp [seqStd, momSeq]
    | 2, _ => simp [seqStd, momSeq]
    | n + 3, hn =>
      have := hv ⟨n, by omega⟩
      simp only at this
      simp [seqStd, momSeq, show n < 6 by omega, this]
  · refine momOk_accepts h0 he hs (List.all_eq_true.1 table_central r hr) (a := seqCentral m) (fun _ _ h => hk_central m junk h)
      (fun n hn => ?_) ht
    match n, hn with
    | 0, _ => simp [seqCentral, momSeq]
    | 1, _ => simp [seqCentral, momSeq]
    | 2, _ => simp [seqCentral, momSeq, h2]
    | n + 3, hn =>
      have := hm ⟨n, by omega⟩
      simp only at this
      simp [seqCentral, momSeq, show n < 6 by omega, this]

theorem shift_ex13 : NearSolver (1 / 10 ^ 13) (shiftSolve (-(1 / 10 ^ 13))) := shift_near (by rw [abs_neg, abs_of_pos (by positivity)])

example (junk) := C78_tests (by positivity) le_rfl shift_ex13 junk (t := 0) le_rfl _ (List.mem_of_getElem? (i := 21) (l := momTable) rfl)
example (junk) := C78_margin shift_ex junk (t := 0) (N := 125) (k := 1 / 60) le_rfl (by norm_num) (by norm_num)

end Unc.Props
