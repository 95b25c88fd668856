import Verif.Model.Ensemble
import Verif.Model.Double
import Verif.Spec.Torus
/-
Data files of /repo/data_pytest, written by runs of the real program and read by test_data_json.py:18-61.  Of the five files those for the lengths 5 and 10
are transcribed (those for 25, 50 and 100 are too long to be evaluated in the kernel).
-/
namespace SqPerc

/-- The values that test_data_json.py:27-35 takes from a file.  The decimals are written as integers: `pc` and the order parameters in units of `10⁻⁴`, the
entropies in units of `10⁻³²`; no digit is lost.  The index sequence is that of the id sequence (so it is in the files that are transcribed). -/
structure DataFile where
  order : List Nat
  pc : Nat
  sites : Nat
  bonds : Nat
  entropies : List Int
  largest : List Nat
  wrapping : List Nat

/-- The float that Python reads from a decimal: the number `z / 10ᵏ`, correctly rounded. -/
noncomputable def decimal (k : Nat) (z : Int) : Dbl := Dbl.round (decide (z < 0)) ((z : ℝ) / 10 ^ k)

/-- test_data_json.py:27-35: the values as the test reads them. -/
noncomputable def DataFile.values (D : DataFile) (L : Nat) : CrossFile Dbl :=
  ⟨D.order, D.order.map (fun k : Nat => [((k / L : Nat) : Int), ((k % L : Nat) : Int)]), decimal 4 D.pc, D.sites, D.bonds, D.entropies.map (decimal 32),
    D.largest.map (fun n : Nat => decimal 4 n), D.wrapping.map (fun n : Nat => decimal 4 n)⟩

/-- data_pytest/SitePercolationL0__percolation_cross_check_data_L5_20210329_192337.txt. -/
def file5 : DataFile where
  order :=
    [20, 18, 14, 21, 8, 9, 10, 2, 0, 6, 12, 4, 15, 23, 22, 5, 19, 13, 17, 11, 24, 3, 7, 1, 16]
  pc := 5200
  sites := 9
  bonds := 27
  entropies :=
    [380111945653855500000000000000000, 369021590764896400000000000000000, 357931235875937270000000000000000, 341778848678122000000000000000000,
      330688493789162900000000000000000, 306817501707200200000000000000000, 286180520273081160000000000000000, 275090165384122050000000000000000,
      256281205611015500000000000000000, 245190850722056370000000000000000, 234100495833097270000000000000000, 185897089743568110000000000000000,
      168865690222744380000000000000000, 152713303024929110000000000000000, 83263782366783970000000000000000, 56648735704209140000000000000000,
      47103257869048526000000000000000, 19567003495657110000000000000000, 9803911327973229000000000000000, 29143354396410360, 29143354396410360,
      29143354396410360, 29143354396410360, 29143354396410360, 29143354396410360]
  largest :=
    [800, 800, 800, 1400, 1400, 2000, 2600, 2600, 2600, 2600, 2600, 5000, 5400, 5400, 7800, 8600, 8800, 9600, 9800, 10000, 10000, 10000, 10000,
      10000, 10000]
  wrapping :=
    [0, 0, 0, 0, 0, 0, 0, 0, 0, 0, 0, 0, 5400, 5400, 7800, 8600, 8800, 9600, 9800, 10000, 10000, 10000, 10000, 10000, 10000]

/-- data_pytest/SitePercolationL0__percolation_cross_check_data_L10_20210329_192124.txt. -/
def file10 : DataFile where
  order :=
    [54, 34, 57, 69, 83, 60, 81, 61, 71, 49, 72, 8, 39, 70, 16, 86, 76, 78, 7, 2, 58, 24, 43, 41, 6, 99, 47, 3, 40, 44, 32, 11, 9, 65, 5, 56, 27, 19,
      30, 74, 55, 53, 94, 95, 1, 26, 64, 38, 12, 93, 31, 92, 23, 84, 62, 51, 68, 36, 63, 80, 10, 82, 25, 18, 33, 96, 37, 28, 14, 66, 90, 50, 0, 21,
      45, 59, 85, 97, 4, 75, 35, 13, 98, 52, 29, 67, 42, 88, 15, 79, 73, 77, 91, 17, 48, 89, 22, 20, 46, 87]
  pc := 5900
  sites := 57
  bonds := 161
  entropies :=
    [527059147932563800000000000000000, 524286559210324000000000000000000, 521513970488084200000000000000000, 518741381765844400000000000000000,
      515968793043604600000000000000000, 511930696244150900000000000000000, 509158107521911100000000000000000, 504455867578634450000000000000000,
      496560671987926200000000000000000, 493788083265686400000000000000000, 487996622741523500000000000000000, 485224034019283700000000000000000,
      481185937219829900000000000000000, 477190621925815200000000000000000, 474418033203575400000000000000000, 471645444481335600000000000000000,
      467607347681881800000000000000000, 464834758959642000000000000000000, 460796662160188200000000000000000, 458024073437948400000000000000000,
      453985976638494650000000000000000, 449947879839040900000000000000000, 447175291116801100000000000000000, 444402702394561300000000000000000,
      437313805814994600000000000000000, 434541217092754800000000000000000, 429838977149478200000000000000000, 425800880350024400000000000000000,
      418711983770457800000000000000000, 408887136958712600000000000000000, 406114548236472800000000000000000, 403341959514233000000000000000000,
      394814548757891600000000000000000, 392041960035651800000000000000000, 386012663350791500000000000000000, 380853417992261760000000000000000,
      378080829270021960000000000000000, 371846348446110900000000000000000, 368208142761344300000000000000000, 365435554039104500000000000000000,
      347112894444287800000000000000000, 342557682470552560000000000000000, 339785093748312760000000000000000, 329566828611885300000000000000000,
      322477932032318700000000000000000, 311675341040160130000000000000000, 302823043287171600000000000000000, 297120073974372720000000000000000,
      293481868289606140000000000000000, 268139853770746000000000000000000, 260867604830866000000000000000000, 255807211368932000000000000000000,
      248683266790168570000000000000000, 210714466576237670000000000000000, 206623768689148400000000000000000, 185831311393729440000000000000000,
      126105755413267780000000000000000, 117007145914403820000000000000000, 113967999751860700000000000000000, 107880409767358840000000000000000,
      101780549536312060000000000000000, 101780549536312060000000000000000, 95668567796310910000000000000000, 89544609722110260000000000000000,
      89544609722110260000000000000000, 71742485322019680000000000000000, 71742485322019680000000000000000, 68653000678807970000000000000000,
      59367755325246320000000000000000, 56267128130815170000000000000000, 50057646954776870000000000000000, 46948822835058496000000000000000,
      46948822835058496000000000000000, 40723080978899690000000000000000, 34486643731667344000000000000000, 34486643731667344000000000000000,
      31364449799557365000000000000000, 25112180940136520000000000000000, 25112180940136520000000000000000, 25112180940136520000000000000000,
      25112180940136520000000000000000, 25112180940136520000000000000000, 21982133425482092000000000000000, 18849495225660720000000000000000,
      15714279694838237000000000000000, 12576500050212860000000000000000, 12576500050212860000000000000000, 6293300616044560000000000000000,
      6293300616044560000000000000000, 3147906594716554000000000000000, 3147906594716554000000000000000, -120736753927985770, -120736753927985770,
      -120736753927985770, -120736753927985770, -120736753927985770, -120736753927985770, -120736753927985770, -120736753927985770,
      -120736753927985770]
  largest :=
    [200, 200, 200, 200, 200, 350, 350, 500, 800, 800, 950, 950, 950, 1050, 1050, 1050, 1050, 1050, 1050, 1050, 1050, 1050, 1050, 1050, 1050, 1050,
      1050, 1050, 1050, 1050, 1050, 1050, 1050, 1050, 1100, 1100, 1100, 1250, 1250, 1250, 1700, 1800, 1800, 1800, 1800, 1850, 2050, 2050, 2050, 2850,
      2850, 2950, 2950, 5200, 5200, 5200, 7850, 8000, 8050, 8150, 8250, 8250, 8350, 8450, 8450, 8850, 8850, 8900, 9050, 9100, 9200, 9250, 9250, 9350,
      9450, 9450, 9500, 9600, 9600, 9600, 9600, 9600, 9650, 9700, 9750, 9800, 9800, 9900, 9900, 9950, 9950, 10000, 10000, 10000, 10000, 10000, 10000,
      10000, 10000, 10000]
  wrapping :=
    [0, 0, 0, 0, 0, 0, 0, 0, 0, 0, 0, 0, 0, 0, 0, 0, 0, 0, 0, 0, 0, 0, 0, 0, 0, 0, 0, 0, 0, 0, 0, 0, 0, 0, 0, 0, 0, 0, 0, 0, 0, 0, 0, 0, 0, 0, 0, 0,
      0, 0, 0, 0, 0, 0, 0, 0, 0, 0, 8050, 8150, 8250, 8250, 8350, 8450, 8450, 8850, 8850, 8900, 9050, 9100, 9200, 9250, 9250, 9350, 9450, 9450, 9500,
      9600, 9600, 9600, 9600, 9600, 9650, 9700, 9750, 9800, 9800, 9900, 9900, 9950, 9950, 10000, 10000, 10000, 10000, 10000, 10000, 10000, 10000,
      10000]

end SqPerc
