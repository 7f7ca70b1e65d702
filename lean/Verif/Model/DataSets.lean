import Verif.Model.Data

/-!
# The data modules shipped with the program (data/*.py)

Transcribed literally: integer literals are `.int`, float literals `.flt` (the decimal number that is written, not its binary rounding), `(0.25)` is a number, not a tuple.
`10*365.25` is written as 3652.5.
-/

namespace Oneka

/-- data/basic.py:22-25 -/
def basicDataWells : List LitWell := [
    ⟨.int 2250, .int 2250, .flt 0.25, .tup [.int 600, .int 750, .int 900]⟩, ⟨.int 1750, .int 2750, .flt 0.25, .tup [.int 600, .int 750, .int 900]⟩]

/-- data/basic.py:27-53 -/
def basicDataObs : List LitObs := [
    ⟨.int 1000, .int 1000, .int 100, .int 2⟩, ⟨.int 1000, .int 1500, .int 105, .int 2⟩, ⟨.int 1000, .int 2000, .int 110, .int 2⟩,
    ⟨.int 1000, .int 2500, .int 115, .int 2⟩, ⟨.int 1000, .int 3000, .int 120, .int 2⟩, ⟨.int 1500, .int 1000, .int 95, .int 2⟩,
    ⟨.int 1500, .int 1500, .int 100, .int 2⟩, ⟨.int 1500, .int 2000, .int 105, .int 2⟩, ⟨.int 1500, .int 2500, .int 110, .int 2⟩,
    ⟨.int 1500, .int 3000, .int 115, .int 2⟩, ⟨.int 2000, .int 1000, .int 90, .int 2⟩, ⟨.int 2000, .int 1500, .int 95, .int 2⟩,
    ⟨.int 2000, .int 2000, .int 100, .int 2⟩, ⟨.int 2000, .int 2500, .int 105, .int 2⟩, ⟨.int 2000, .int 3000, .int 110, .int 2⟩,
    ⟨.int 2500, .int 1000, .int 85, .int 2⟩, ⟨.int 2500, .int 1500, .int 90, .int 2⟩, ⟨.int 2500, .int 2000, .int 95, .int 2⟩,
    ⟨.int 2500, .int 2500, .int 100, .int 2⟩, ⟨.int 2500, .int 3000, .int 105, .int 2⟩, ⟨.int 3000, .int 1000, .int 80, .int 2⟩,
    ⟨.int 3000, .int 1500, .int 85, .int 2⟩, ⟨.int 3000, .int 2000, .int 90, .int 2⟩, ⟨.int 3000, .int 2500, .int 95, .int 2⟩,
    ⟨.int 3000, .int 3000, .int 100, .int 2⟩]

/-- data/basic.py:1-53 -/
def basicData : DataSet where
  projectname := "Basic example"
  target := 0
  npaths := 10
  duration := .flt 3652.5
  nrealizations := 20
  base := .flt 0.0
  cDist := .tup [.flt 15.0, .flt 20.0, .flt 25.0]
  pDist := .num (.flt 0.20)
  tDist := .tup [.flt 20.0, .flt 25.0]
  wells := basicDataWells
  observations := basicDataObs
  buffer := .int 100
  spacing := .int 10
  umbra := .int 20
  smooth := .int 4
  confined := true
  tol := .int 1
  maxstep := .int 20

/-- data/basic_deterministic.py:22-25 -/
def basicDeterministicDataWells : List LitWell := [
    ⟨.int 2250, .int 2250, .flt 0.25, .tup [.int 600, .int 750, .int 900]⟩, ⟨.int 1750, .int 2750, .flt 0.25, .tup [.int 600, .int 750, .int 900]⟩]

/-- data/basic_deterministic.py:27-53 -/
def basicDeterministicDataObs : List LitObs := [
    ⟨.int 1000, .int 1000, .int 100, .int 2⟩, ⟨.int 1000, .int 1500, .int 105, .int 2⟩, ⟨.int 1000, .int 2000, .int 110, .int 2⟩,
    ⟨.int 1000, .int 2500, .int 115, .int 2⟩, ⟨.int 1000, .int 3000, .int 120, .int 2⟩, ⟨.int 1500, .int 1000, .int 95, .int 2⟩,
    ⟨.int 1500, .int 1500, .int 100, .int 2⟩, ⟨.int 1500, .int 2000, .int 105, .int 2⟩, ⟨.int 1500, .int 2500, .int 110, .int 2⟩,
    ⟨.int 1500, .int 3000, .int 115, .int 2⟩, ⟨.int 2000, .int 1000, .int 90, .int 2⟩, ⟨.int 2000, .int 1500, .int 95, .int 2⟩,
    ⟨.int 2000, .int 2000, .int 100, .int 2⟩, ⟨.int 2000, .int 2500, .int 105, .int 2⟩, ⟨.int 2000, .int 3000, .int 110, .int 2⟩,
    ⟨.int 2500, .int 1000, .int 85, .int 2⟩, ⟨.int 2500, .int 1500, .int 90, .int 2⟩, ⟨.int 2500, .int 2000, .int 95, .int 2⟩,
    ⟨.int 2500, .int 2500, .int 100, .int 2⟩, ⟨.int 2500, .int 3000, .int 105, .int 2⟩, ⟨.int 3000, .int 1000, .int 80, .int 2⟩,
    ⟨.int 3000, .int 1500, .int 85, .int 2⟩, ⟨.int 3000, .int 2000, .int 90, .int 2⟩, ⟨.int 3000, .int 2500, .int 95, .int 2⟩,
    ⟨.int 3000, .int 3000, .int 100, .int 2⟩]

/-- data/basic_deterministic.py:1-53 -/
def basicDeterministicData : DataSet where
  projectname := "Basic deterministic example"
  target := 0
  npaths := 100
  duration := .flt 3652.5
  nrealizations := 1
  base := .flt 0.0
  cDist := .tup [.flt 35.0, .flt 50.0, .flt 75.0]
  pDist := .num (.flt 0.25)
  tDist := .tup [.flt 20.0, .flt 25.0]
  wells := basicDeterministicDataWells
  observations := basicDeterministicDataObs
  buffer := .int 100
  spacing := .int 2
  umbra := .int 10
  smooth := .int 4
  confined := true
  tol := .int 1
  maxstep := .int 20

/-- data/carlos.py:22-22 -/
def carlosDataWells : List LitWell := [
    ⟨.int 322579, .int 5093431, .flt 0.2, .num (.int 179)⟩]

/-- data/carlos.py:24-38 -/
def carlosDataObs : List LitObs := [
    ⟨.int 324125, .flt 5094758.0, .flt 413.0040, .flt 1.6⟩, ⟨.int 322332, .flt 5093693.0, .flt 411.7848, .flt 1.6⟩,
    ⟨.int 322636, .flt 5094024.0, .flt 410.8704, .flt 1.6⟩, ⟨.int 323438, .flt 5092221.0, .flt 419.1000, .flt 1.6⟩,
    ⟨.int 322474, .flt 5092682.0, .flt 415.7472, .flt 1.6⟩, ⟨.int 323402, .flt 5092650.0, .flt 420.0000, .flt 1.5⟩,
    ⟨.int 324334, .flt 5092974.0, .flt 423.0000, .flt 1.5⟩, ⟨.int 324201, .flt 5092476.0, .flt 421.0000, .flt 1.5⟩,
    ⟨.int 321612, .flt 5092354.0, .flt 418.0000, .flt 1.5⟩, ⟨.int 321739, .flt 5093159.0, .flt 414.0000, .flt 1.5⟩,
    ⟨.int 321820, .flt 5093298.0, .flt 414.0000, .flt 1.5⟩, ⟨.int 323384, .flt 5094353.0, .flt 415.0000, .flt 1.5⟩,
    ⟨.int 323060, .flt 5091983.0, .flt 423.0000, .flt 1.5⟩]

/-- data/carlos.py:1-38 -/
def carlosData : DataSet where
  projectname := "Carlos example"
  target := 0
  npaths := 200
  duration := .flt 3652.5
  nrealizations := 200
  base := .flt 0.0
  cDist := .tup [.flt 1.0, .flt 3.0, .flt 10.0]
  pDist := .tup [.flt 0.20, .flt 0.25]
  tDist := .tup [.int 20, .int 25, .int 30]
  wells := carlosDataWells
  observations := carlosDataObs
  buffer := .int 100
  spacing := .int 2
  umbra := .int 4
  smooth := .int 2
  confined := true
  tol := .int 1
  maxstep := .int 10

/-- data/barnesville.py:22-22 -/
def barnesvilleDataWells : List LitWell := [
    ⟨.flt 0.0, .flt 0.0, .flt 0.2, .num (.flt 312.0)⟩]

/-- data/barnesville.py:24-56 -/
def barnesvilleDataObs : List LitObs := [
    ⟨.int (-857), .int (-737), .flt 306.02, .flt 1.62⟩, ⟨.int (-1128), .int 686, .flt 309.07, .flt 1.62⟩, ⟨.int 799, .int (-1218), .flt 318.21, .flt 1.62⟩,
    ⟨.int (-1081), .int 1867, .flt 306.48, .flt 1.62⟩, ⟨.int (-2333), .int 756, .flt 298.7, .flt 1.62⟩, ⟨.int (-2833), .int (-602), .flt 301.45, .flt 1.62⟩,
    ⟨.int 3243, .int (-107), .flt 332.84, .flt 1.62⟩, ⟨.int (-2823), .int (-1971), .flt 302.06, .flt 1.62⟩, ⟨.int (-515), .int 3679, .flt 306.63, .flt 1.62⟩,
    ⟨.int (-722), .int 4128, .flt 309.37, .flt 1.62⟩, ⟨.int (-3677), .int (-2236), .flt 300.23, .flt 1.62⟩, ⟨.int 805, .int (-4232), .flt 315.47, .flt 1.62⟩,
    ⟨.int 2244, .int 4038, .flt 331.62, .flt 1.62⟩, ⟨.int (-1091), .int 4552, .flt 303.58, .flt 1.62⟩, ⟨.int (-3127), .int (-3688), .flt 301.14, .flt 1.62⟩,
    ⟨.int 1357, .int (-4784), .flt 321.26, .flt 1.62⟩, ⟨.int 3340, .int (-4336), .flt 333.45, .flt 1.62⟩, ⟨.int 5617, .int 184, .flt 338.33, .flt 1.62⟩,
    ⟨.int 4415, .int 3641, .flt 336.19, .flt 1.62⟩, ⟨.int 6239, .int 423, .flt 342.6, .flt 1.62⟩, ⟨.int 1157, .int (-6174), .flt 320.65, .flt 1.62⟩,
    ⟨.int 5493, .int 3338, .flt 343.81, .flt 1.62⟩, ⟨.int (-1815), .int (-6173), .flt 306.93, .flt 1.62⟩, ⟨.int (-3184), .int (-5778), .flt 301.75, .flt 1.62⟩,
    ⟨.int 5993, .int 3198, .flt 341.68, .flt 1.62⟩, ⟨.int 5902, .int (-3423), .flt 342.29, .flt 1.62⟩, ⟨.int 7262, .int 1039, .flt 344.42, .flt 1.62⟩,
    ⟨.int 4196, .int 6022, .flt 335.28, .flt 1.62⟩, ⟨.int 1359, .int 7822, .flt 328.27, .flt 1.62⟩, ⟨.int 6332, .int (-6215), .flt 345.95, .flt 1.62⟩,
    ⟨.int (-666), .int 9303, .flt 317.6, .flt 1.62⟩]

/-- data/barnesville.py:1-56 -/
def barnesvilleData : DataSet where
  projectname := "Barnesville example"
  target := 0
  npaths := 200
  duration := .flt 3652.5
  nrealizations := 200
  base := .flt 0.0
  cDist := .tup [.flt 1.0, .flt 5.0, .flt 20.0]
  pDist := .tup [.flt 0.20, .flt 0.25]
  tDist := .tup [.flt 100.0, .flt 120.0, .flt 150.0]
  wells := barnesvilleDataWells
  observations := barnesvilleDataObs
  buffer := .int 100
  spacing := .int 2
  umbra := .int 4
  smooth := .int 2
  confined := true
  tol := .int 1
  maxstep := .int 10

/-- data/long_prairie.py:22-34 -/
def longPrairieDataWells : List LitWell := [
    ⟨.int 355731, .int 5091141, .flt 0.1524, .num (.flt 1097.56)⟩, ⟨.int 356276, .int 5092259, .flt 0.0762, .num (.flt 27.98)⟩,
    ⟨.int 356276, .int 5092259, .flt 0.0762, .num (.flt 100.53)⟩, ⟨.int 355796, .int 5091952, .flt 0.0762, .num (.flt 12.44)⟩,
    ⟨.int 355800, .int 5092454, .flt 0.0635, .num (.flt 8.29)⟩, ⟨.int 356366, .int 5092269, .flt 0.0762, .num (.flt 89.13)⟩,
    ⟨.int 356366, .int 5092269, .flt 0.0762, .num (.flt 24.87)⟩, ⟨.int 355674, .int 5091161, .flt 0.2032, .num (.flt 962.83)⟩,
    ⟨.int 355306, .int 5091163, .flt 0.0508, .num (.flt 8.52)⟩, ⟨.int 356467, .int 5092921, .flt 0.1016, .num (.flt 274.65)⟩,
    ⟨.int 355736, .int 5091176, .flt 0.2032, .num (.flt 563.81)⟩]

/-- data/long_prairie.py:36-98 -/
def longPrairieDataObs : List LitObs := [
    ⟨.int 353676, .int 5092700, .flt 400.2, .flt 2.0⟩, ⟨.int 355056, .int 5092739, .flt 385.9, .flt 2.0⟩, ⟨.int 353996, .int 5092723, .flt 394.6, .flt 2.0⟩,
    ⟨.int 354040, .int 5092723, .flt 393.9, .flt 2.0⟩, ⟨.int 353745, .int 5092665, .flt 402.2, .flt 2.0⟩, ⟨.int 355474, .int 5092596, .flt 391.2, .flt 2.0⟩,
    ⟨.int 354098, .int 5092694, .flt 395.3, .flt 2.0⟩, ⟨.int 353957, .int 5092687, .flt 396.6, .flt 2.0⟩, ⟨.int 353512, .int 5092499, .flt 401.2, .flt 2.0⟩,
    ⟨.int 355494, .int 5092570, .flt 393.5, .flt 2.0⟩, ⟨.int 355810, .int 5092480, .flt 394.2, .flt 2.0⟩, ⟨.int 357436, .int 5092465, .flt 403.7, .flt 2.0⟩,
    ⟨.int 354593, .int 5092404, .flt 392.9, .flt 2.0⟩, ⟨.int 354613, .int 5092340, .flt 389.8, .flt 2.0⟩, ⟨.int 356299, .int 5092242, .flt 394.8, .flt 2.0⟩,
    ⟨.int 356413, .int 5092268, .flt 395.0, .flt 2.0⟩, ⟨.int 355280, .int 5092210, .flt 393.8, .flt 2.0⟩, ⟨.int 356896, .int 5092108, .flt 394.4, .flt 2.0⟩,
    ⟨.int 356984, .int 5092143, .flt 400.4, .flt 2.0⟩, ⟨.int 356956, .int 5092055, .flt 393.3, .flt 2.0⟩, ⟨.int 353664, .int 5092008, .flt 402.9, .flt 2.0⟩,
    ⟨.int 355773, .int 5091947, .flt 397.7, .flt 2.0⟩, ⟨.int 354068, .int 5091785, .flt 398.0, .flt 2.0⟩, ⟨.int 357258, .int 5091739, .flt 401.7, .flt 2.0⟩,
    ⟨.int 354322, .int 5091700, .flt 403.9, .flt 2.0⟩, ⟨.int 357108, .int 5091713, .flt 397.3, .flt 2.0⟩, ⟨.int 357055, .int 5091589, .flt 402.3, .flt 2.0⟩,
    ⟨.int 357269, .int 5091528, .flt 403.6, .flt 2.0⟩, ⟨.int 357134, .int 5091500, .flt 401.9, .flt 2.0⟩, ⟨.int 354252, .int 5091329, .flt 400.6, .flt 2.0⟩,
    ⟨.int 357348, .int 5091262, .flt 398.4, .flt 2.0⟩, ⟨.int 354444, .int 5091299, .flt 397.6, .flt 2.0⟩, ⟨.int 355731, .int 5091141, .flt 394.8, .flt 2.0⟩,
    ⟨.int 357970, .int 5091139, .flt 404.4, .flt 2.0⟩, ⟨.int 355736, .int 5091176, .flt 394.6, .flt 2.0⟩, ⟨.int 354297, .int 5091170, .flt 399.2, .flt 2.0⟩,
    ⟨.int 355306, .int 5091163, .flt 395.1, .flt 2.0⟩, ⟨.int 355674, .int 5091161, .flt 394.4, .flt 2.0⟩, ⟨.int 357429, .int 5091234, .flt 399.9, .flt 2.0⟩,
    ⟨.int 356099, .int 5090755, .flt 393.4, .flt 2.0⟩, ⟨.int 356079, .int 5090655, .flt 392.7, .flt 2.0⟩, ⟨.int 356108, .int 5090698, .flt 393.7, .flt 2.0⟩,
    ⟨.int 356108, .int 5090700, .flt 397.1, .flt 2.0⟩, ⟨.int 356088, .int 5090659, .flt 392.8, .flt 2.0⟩, ⟨.int 356747, .int 5090656, .flt 397.9, .flt 2.0⟩,
    ⟨.int 356253, .int 5090481, .flt 399.0, .flt 2.0⟩, ⟨.int 357783, .int 5090485, .flt 401.0, .flt 2.0⟩, ⟨.int 355945, .int 5090333, .flt 393.2, .flt 2.0⟩,
    ⟨.int 356308, .int 5090204, .flt 399.9, .flt 2.0⟩, ⟨.int 358419, .int 5090200, .flt 399.5, .flt 2.0⟩, ⟨.int 354335, .int 5090043, .flt 399.9, .flt 2.0⟩,
    ⟨.int 356466, .int 5090007, .flt 401.4, .flt 2.0⟩, ⟨.int 353569, .int 5089997, .flt 415.7, .flt 2.0⟩, ⟨.int 356274, .int 5090073, .flt 398.8, .flt 2.0⟩,
    ⟨.int 356502, .int 5089983, .flt 394.6, .flt 2.0⟩, ⟨.int 355175, .int 5089923, .flt 394.3, .flt 2.0⟩, ⟨.int 355324, .int 5089757, .flt 396.5, .flt 2.0⟩,
    ⟨.int 355379, .int 5089050, .flt 392.4, .flt 2.0⟩, ⟨.int 355326, .int 5089115, .flt 396.7, .flt 2.0⟩, ⟨.int 354864, .int 5088290, .flt 397.2, .flt 2.0⟩,
    ⟨.int 355249, .int 5088248, .flt 397.1, .flt 2.0⟩]

/-- data/long_prairie.py:1-98 -/
def longPrairieData : DataSet where
  projectname := "Long Prairie example"
  target := 0
  npaths := 200
  duration := .flt 3652.5
  nrealizations := 200
  base := .flt 0.0
  cDist := .tup [.flt 20.0, .flt 25.0, .flt 30.0]
  pDist := .num (.flt 0.25)
  tDist := .tup [.flt 10.0, .flt 20.0]
  wells := longPrairieDataWells
  observations := longPrairieDataObs
  buffer := .int 100
  spacing := .int 5
  umbra := .int 10
  smooth := .int 2
  confined := true
  tol := .int 1
  maxstep := .int 20

/-- data/paynesville.py:22-28 -/
def paynesvilleDataWells : List LitWell := [
    ⟨.flt 366156.00, .flt 5026806.00, .flt 0.20, .num (.flt 500.00)⟩, ⟨.flt 366631.00, .flt 5026508.00, .flt 0.20, .num (.flt 500.00)⟩,
    ⟨.flt 366745.00, .flt 5026484.00, .flt 0.20, .num (.flt 500.00)⟩, ⟨.flt 366668.00, .flt 5026216.00, .flt 0.20, .num (.flt 500.00)⟩,
    ⟨.flt 365543.00, .flt 5025752.00, .flt 0.20, .num (.flt 500.00)⟩]

/-- data/paynesville.py:30-243 -/
def paynesvilleDataObs : List LitObs := [
    ⟨.flt 365186.00, .flt 5020576.00, .flt 342.29, .flt 1.62⟩, ⟨.flt 363456.00, .flt 5034924.00, .flt 380.39, .flt 1.62⟩,
    ⟨.flt 370197.00, .flt 5018014.00, .flt 342.29, .flt 1.62⟩, ⟨.flt 374033.00, .flt 5022942.00, .flt 356.62, .flt 1.62⟩,
    ⟨.flt 372921.00, .flt 5029544.00, .flt 353.26, .flt 1.62⟩, ⟨.flt 373731.00, .flt 5027679.00, .flt 346.25, .flt 1.62⟩,
    ⟨.flt 371995.00, .flt 5022062.00, .flt 357.23, .flt 1.62⟩, ⟨.flt 369825.00, .flt 5030209.00, .flt 354.48, .flt 1.62⟩,
    ⟨.flt 366984.00, .flt 5019300.00, .flt 338.33, .flt 1.62⟩, ⟨.flt 367127.00, .flt 5019275.00, .flt 338.94, .flt 1.62⟩,
    ⟨.flt 360058.00, .flt 5028884.00, .flt 382.22, .flt 1.62⟩, ⟨.flt 373852.00, .flt 5017677.00, .flt 357.23, .flt 1.62⟩,
    ⟨.flt 371940.00, .flt 5028486.00, .flt 352.04, .flt 1.62⟩, ⟨.flt 363526.00, .flt 5030240.00, .flt 368.50, .flt 1.62⟩,
    ⟨.flt 365477.00, .flt 5029387.00, .flt 357.53, .flt 1.62⟩, ⟨.flt 365451.00, .flt 5029303.00, .flt 357.84, .flt 1.62⟩,
    ⟨.flt 371333.00, .flt 5019767.00, .flt 356.62, .flt 1.62⟩, ⟨.flt 365309.00, .flt 5032485.00, .flt 373.99, .flt 1.62⟩,
    ⟨.flt 371811.00, .flt 5031344.00, .flt 365.76, .flt 1.62⟩, ⟨.flt 368090.00, .flt 5034180.00, .flt 361.19, .flt 1.62⟩,
    ⟨.flt 365168.00, .flt 5029061.00, .flt 353.87, .flt 1.62⟩, ⟨.flt 373895.00, .flt 5024841.00, .flt 352.50, .flt 1.62⟩,
    ⟨.flt 369193.00, .flt 5027743.00, .flt 355.09, .flt 1.62⟩, ⟨.flt 360082.00, .flt 5018527.00, .flt 356.92, .flt 1.62⟩,
    ⟨.flt 372345.00, .flt 5032473.00, .flt 349.30, .flt 1.62⟩, ⟨.flt 363671.00, .flt 5027786.00, .flt 360.88, .flt 1.62⟩,
    ⟨.flt 363341.00, .flt 5020077.00, .flt 352.65, .flt 1.62⟩, ⟨.flt 359412.00, .flt 5027927.00, .flt 362.41, .flt 1.62⟩,
    ⟨.flt 372544.00, .flt 5020332.00, .flt 361.80, .flt 1.62⟩, ⟨.flt 373783.00, .flt 5028527.00, .flt 349.91, .flt 1.62⟩,
    ⟨.flt 367637.00, .flt 5024955.00, .flt 350.22, .flt 1.62⟩, ⟨.flt 373443.00, .flt 5021072.00, .flt 347.47, .flt 1.62⟩,
    ⟨.flt 373578.00, .flt 5034330.00, .flt 363.93, .flt 1.62⟩, ⟨.flt 372670.00, .flt 5020450.00, .flt 356.62, .flt 1.62⟩,
    ⟨.flt 371816.00, .flt 5026466.00, .flt 344.12, .flt 1.62⟩, ⟨.flt 365249.00, .flt 5023977.00, .flt 344.12, .flt 1.62⟩,
    ⟨.flt 373913.00, .flt 5028349.00, .flt 343.51, .flt 1.62⟩, ⟨.flt 374057.00, .flt 5023969.00, .flt 357.84, .flt 1.62⟩,
    ⟨.flt 374619.00, .flt 5020432.00, .flt 354.48, .flt 1.62⟩, ⟨.flt 372304.00, .flt 5032073.00, .flt 352.04, .flt 1.62⟩,
    ⟨.flt 374389.00, .flt 5033776.00, .flt 339.85, .flt 1.62⟩, ⟨.flt 363231.00, .flt 5031480.00, .flt 378.87, .flt 1.62⟩,
    ⟨.flt 364977.00, .flt 5020729.00, .flt 349.00, .flt 1.62⟩, ⟨.flt 363924.00, .flt 5022765.00, .flt 356.31, .flt 1.62⟩,
    ⟨.flt 367662.00, .flt 5021853.00, .flt 342.29, .flt 1.62⟩, ⟨.flt 369309.00, .flt 5034925.00, .flt 361.19, .flt 1.62⟩,
    ⟨.flt 367645.00, .flt 5025180.00, .flt 347.47, .flt 1.62⟩, ⟨.flt 367785.00, .flt 5031876.00, .flt 359.05, .flt 1.62⟩,
    ⟨.flt 366770.00, .flt 5025795.00, .flt 354.18, .flt 1.62⟩, ⟨.flt 367690.00, .flt 5027172.00, .flt 346.86, .flt 1.62⟩,
    ⟨.flt 372394.00, .flt 5025293.00, .flt 344.73, .flt 1.62⟩, ⟨.flt 365360.00, .flt 5034882.00, .flt 381.61, .flt 1.62⟩,
    ⟨.flt 362797.00, .flt 5021507.00, .flt 343.20, .flt 1.62⟩, ⟨.flt 364000.00, .flt 5031844.00, .flt 382.22, .flt 1.62⟩,
    ⟨.flt 366974.00, .flt 5025742.00, .flt 353.57, .flt 1.62⟩, ⟨.flt 366621.00, .flt 5023616.00, .flt 345.34, .flt 1.62⟩,
    ⟨.flt 366405.00, .flt 5024471.00, .flt 347.47, .flt 1.62⟩, ⟨.flt 365833.00, .flt 5025559.00, .flt 352.96, .flt 1.62⟩,
    ⟨.flt 368037.00, .flt 5022654.00, .flt 349.30, .flt 1.62⟩, ⟨.flt 360277.00, .flt 5021333.00, .flt 361.19, .flt 1.62⟩,
    ⟨.flt 358791.00, .flt 5027009.00, .flt 360.58, .flt 1.62⟩, ⟨.flt 361495.00, .flt 5024973.00, .flt 363.63, .flt 1.62⟩,
    ⟨.flt 359005.00, .flt 5023784.00, .flt 345.03, .flt 1.62⟩, ⟨.flt 359006.00, .flt 5023783.00, .flt 345.34, .flt 1.62⟩,
    ⟨.flt 359197.00, .flt 5022266.00, .flt 373.38, .flt 1.62⟩, ⟨.flt 360263.00, .flt 5017479.00, .flt 357.23, .flt 1.62⟩,
    ⟨.flt 366464.00, .flt 5018229.00, .flt 349.61, .flt 1.62⟩, ⟨.flt 367845.00, .flt 5017169.00, .flt 342.90, .flt 1.62⟩,
    ⟨.flt 374594.00, .flt 5019934.00, .flt 355.40, .flt 1.62⟩, ⟨.flt 364283.00, .flt 5027951.00, .flt 356.92, .flt 1.62⟩,
    ⟨.flt 372937.00, .flt 5029704.00, .flt 355.09, .flt 1.62⟩, ⟨.flt 366172.00, .flt 5026822.00, .flt 353.57, .flt 1.62⟩,
    ⟨.flt 363861.00, .flt 5025494.00, .flt 356.62, .flt 1.62⟩, ⟨.flt 365879.00, .flt 5026734.00, .flt 351.13, .flt 1.62⟩,
    ⟨.flt 366689.00, .flt 5031359.00, .flt 359.97, .flt 1.62⟩, ⟨.flt 365026.00, .flt 5022709.00, .flt 342.90, .flt 1.62⟩,
    ⟨.flt 370747.00, .flt 5028983.00, .flt 359.05, .flt 1.62⟩, ⟨.flt 361876.00, .flt 5032387.00, .flt 381.91, .flt 1.62⟩,
    ⟨.flt 372073.00, .flt 5024872.00, .flt 341.38, .flt 1.62⟩, ⟨.flt 373581.00, .flt 5031050.00, .flt 361.19, .flt 1.62⟩,
    ⟨.flt 372501.00, .flt 5023557.00, .flt 351.13, .flt 1.62⟩, ⟨.flt 371741.00, .flt 5025469.00, .flt 342.60, .flt 1.62⟩,
    ⟨.flt 374686.00, .flt 5024443.00, .flt 356.01, .flt 1.62⟩, ⟨.flt 374025.00, .flt 5025828.00, .flt 347.17, .flt 1.62⟩,
    ⟨.flt 365854.00, .flt 5026958.00, .flt 349.91, .flt 1.62⟩, ⟨.flt 366964.00, .flt 5025710.00, .flt 353.26, .flt 1.62⟩,
    ⟨.flt 365278.00, .flt 5030798.00, .flt 359.97, .flt 1.62⟩, ⟨.flt 368710.00, .flt 5023935.00, .flt 350.22, .flt 1.62⟩,
    ⟨.flt 365981.00, .flt 5026141.00, .flt 351.13, .flt 1.62⟩, ⟨.flt 372142.00, .flt 5024051.00, .flt 349.91, .flt 1.62⟩,
    ⟨.flt 361972.00, .flt 5022813.00, .flt 373.68, .flt 1.62⟩, ⟨.flt 366716.00, .flt 5024293.00, .flt 355.09, .flt 1.62⟩,
    ⟨.flt 373960.00, .flt 5023621.00, .flt 355.70, .flt 1.62⟩, ⟨.flt 364473.00, .flt 5027876.00, .flt 356.31, .flt 1.62⟩,
    ⟨.flt 371179.00, .flt 5023338.00, .flt 351.43, .flt 1.62⟩, ⟨.flt 367091.00, .flt 5022584.00, .flt 339.85, .flt 1.62⟩,
    ⟨.flt 363812.00, .flt 5024914.00, .flt 362.10, .flt 1.62⟩, ⟨.flt 366759.00, .flt 5023623.00, .flt 350.22, .flt 1.62⟩,
    ⟨.flt 371776.00, .flt 5026409.00, .flt 341.99, .flt 1.62⟩, ⟨.flt 372530.00, .flt 5024313.00, .flt 336.80, .flt 1.62⟩,
    ⟨.flt 365401.00, .flt 5023786.00, .flt 352.65, .flt 1.62⟩, ⟨.flt 359198.00, .flt 5030616.00, .flt 391.06, .flt 1.62⟩,
    ⟨.flt 367773.00, .flt 5022945.00, .flt 348.69, .flt 1.62⟩, ⟨.flt 362593.00, .flt 5026251.00, .flt 356.01, .flt 1.62⟩,
    ⟨.flt 371896.00, .flt 5022055.00, .flt 357.84, .flt 1.62⟩, ⟨.flt 371824.00, .flt 5026520.00, .flt 342.90, .flt 1.62⟩,
    ⟨.flt 372246.00, .flt 5025100.00, .flt 342.60, .flt 1.62⟩, ⟨.flt 374000.00, .flt 5021545.00, .flt 358.75, .flt 1.62⟩,
    ⟨.flt 365787.00, .flt 5024901.00, .flt 355.40, .flt 1.62⟩, ⟨.flt 363926.00, .flt 5021007.00, .flt 353.26, .flt 1.62⟩,
    ⟨.flt 366109.00, .flt 5023846.00, .flt 342.60, .flt 1.62⟩, ⟨.flt 364204.00, .flt 5025019.00, .flt 354.18, .flt 1.62⟩,
    ⟨.flt 366379.00, .flt 5025720.00, .flt 349.61, .flt 1.62⟩, ⟨.flt 365465.00, .flt 5023968.00, .flt 346.86, .flt 1.62⟩,
    ⟨.flt 367355.00, .flt 5023832.00, .flt 344.12, .flt 1.62⟩, ⟨.flt 371677.00, .flt 5031728.00, .flt 357.84, .flt 1.62⟩,
    ⟨.flt 365201.00, .flt 5020710.00, .flt 343.20, .flt 1.62⟩, ⟨.flt 371544.00, .flt 5027255.00, .flt 352.96, .flt 1.62⟩,
    ⟨.flt 364578.00, .flt 5026839.00, .flt 350.22, .flt 1.62⟩, ⟨.flt 366799.00, .flt 5025752.00, .flt 353.57, .flt 1.62⟩,
    ⟨.flt 365347.00, .flt 5025826.00, .flt 352.65, .flt 1.62⟩, ⟨.flt 374555.00, .flt 5030000.00, .flt 352.35, .flt 1.62⟩,
    ⟨.flt 374699.00, .flt 5025680.00, .flt 347.47, .flt 1.62⟩, ⟨.flt 365716.00, .flt 5025646.00, .flt 353.57, .flt 1.62⟩,
    ⟨.flt 368860.00, .flt 5021091.00, .flt 344.73, .flt 1.62⟩, ⟨.flt 366180.00, .flt 5024000.00, .flt 349.91, .flt 1.62⟩,
    ⟨.flt 362789.00, .flt 5033414.00, .flt 376.43, .flt 1.62⟩, ⟨.flt 366936.00, .flt 5023543.00, .flt 349.91, .flt 1.62⟩,
    ⟨.flt 366900.00, .flt 5032532.00, .flt 358.75, .flt 1.62⟩, ⟨.flt 368422.00, .flt 5033495.00, .flt 356.62, .flt 1.62⟩,
    ⟨.flt 363532.00, .flt 5023097.00, .flt 358.75, .flt 1.62⟩, ⟨.flt 373424.00, .flt 5033799.00, .flt 344.42, .flt 1.62⟩,
    ⟨.flt 371797.00, .flt 5027455.00, .flt 355.09, .flt 1.62⟩, ⟨.flt 366815.00, .flt 5023479.00, .flt 343.51, .flt 1.62⟩,
    ⟨.flt 363359.00, .flt 5021609.00, .flt 348.39, .flt 1.62⟩, ⟨.flt 367219.00, .flt 5025346.00, .flt 349.30, .flt 1.62⟩,
    ⟨.flt 371923.00, .flt 5025267.00, .flt 341.99, .flt 1.62⟩, ⟨.flt 372012.00, .flt 5025277.00, .flt 341.99, .flt 1.62⟩,
    ⟨.flt 372126.00, .flt 5025348.00, .flt 339.55, .flt 1.62⟩, ⟨.flt 367004.00, .flt 5025839.00, .flt 352.04, .flt 1.62⟩,
    ⟨.flt 364001.00, .flt 5022536.00, .flt 351.13, .flt 1.62⟩, ⟨.flt 372892.00, .flt 5024342.00, .flt 352.04, .flt 1.62⟩,
    ⟨.flt 364755.00, .flt 5025524.00, .flt 353.87, .flt 1.62⟩, ⟨.flt 366090.00, .flt 5024096.00, .flt 343.81, .flt 1.62⟩,
    ⟨.flt 364841.00, .flt 5022701.00, .flt 347.47, .flt 1.62⟩, ⟨.flt 370051.00, .flt 5028420.00, .flt 355.09, .flt 1.62⟩,
    ⟨.flt 365969.00, .flt 5027419.00, .flt 352.96, .flt 1.62⟩, ⟨.flt 365963.00, .flt 5027705.00, .flt 352.04, .flt 1.62⟩,
    ⟨.flt 365514.00, .flt 5024923.00, .flt 356.62, .flt 1.62⟩, ⟨.flt 370990.00, .flt 5026808.00, .flt 352.04, .flt 1.62⟩,
    ⟨.flt 369756.00, .flt 5033786.00, .flt 355.09, .flt 1.62⟩, ⟨.flt 372214.00, .flt 5024058.00, .flt 344.12, .flt 1.62⟩,
    ⟨.flt 363106.00, .flt 5021038.00, .flt 345.95, .flt 1.62⟩, ⟨.flt 366911.00, .flt 5032100.00, .flt 358.14, .flt 1.62⟩,
    ⟨.flt 367708.00, .flt 5023246.00, .flt 349.30, .flt 1.62⟩, ⟨.flt 368607.00, .flt 5021390.00, .flt 334.06, .flt 1.62⟩,
    ⟨.flt 374177.00, .flt 5025723.00, .flt 348.69, .flt 1.62⟩, ⟨.flt 366196.00, .flt 5027033.00, .flt 348.39, .flt 1.62⟩,
    ⟨.flt 366772.00, .flt 5025858.00, .flt 354.18, .flt 1.62⟩, ⟨.flt 366548.00, .flt 5029548.00, .flt 355.70, .flt 1.62⟩,
    ⟨.flt 365858.00, .flt 5025176.00, .flt 354.18, .flt 1.62⟩, ⟨.flt 366291.00, .flt 5024126.00, .flt 347.78, .flt 1.62⟩,
    ⟨.flt 359954.00, .flt 5033896.00, .flt 386.49, .flt 1.62⟩, ⟨.flt 371785.00, .flt 5029728.00, .flt 356.01, .flt 1.62⟩,
    ⟨.flt 371481.00, .flt 5024125.00, .flt 340.16, .flt 1.62⟩, ⟨.flt 373358.00, .flt 5023356.00, .flt 354.79, .flt 1.62⟩,
    ⟨.flt 372682.00, .flt 5023650.00, .flt 352.04, .flt 1.62⟩, ⟨.flt 367108.00, .flt 5027078.00, .flt 344.42, .flt 1.62⟩,
    ⟨.flt 366645.00, .flt 5025633.00, .flt 353.26, .flt 1.62⟩, ⟨.flt 363400.00, .flt 5023222.00, .flt 365.15, .flt 1.62⟩,
    ⟨.flt 367371.00, .flt 5021836.00, .flt 344.42, .flt 1.62⟩, ⟨.flt 363577.00, .flt 5024754.00, .flt 356.31, .flt 1.62⟩,
    ⟨.flt 371522.00, .flt 5024925.00, .flt 345.03, .flt 1.62⟩, ⟨.flt 369420.00, .flt 5028019.00, .flt 350.82, .flt 1.62⟩,
    ⟨.flt 363721.00, .flt 5026973.00, .flt 352.35, .flt 1.62⟩, ⟨.flt 365744.00, .flt 5023801.00, .flt 349.30, .flt 1.62⟩,
    ⟨.flt 371665.00, .flt 5025548.00, .flt 338.02, .flt 1.62⟩, ⟨.flt 373390.00, .flt 5024663.00, .flt 352.65, .flt 1.62⟩,
    ⟨.flt 362892.00, .flt 5021458.00, .flt 347.17, .flt 1.62⟩, ⟨.flt 370074.00, .flt 5025817.00, .flt 344.12, .flt 1.62⟩,
    ⟨.flt 369952.00, .flt 5028609.00, .flt 356.92, .flt 1.62⟩, ⟨.flt 368213.00, .flt 5034223.00, .flt 360.27, .flt 1.62⟩,
    ⟨.flt 368402.00, .flt 5024156.00, .flt 353.26, .flt 1.62⟩, ⟨.flt 362879.00, .flt 5027866.00, .flt 358.14, .flt 1.62⟩,
    ⟨.flt 370502.00, .flt 5030321.00, .flt 353.87, .flt 1.62⟩, ⟨.flt 363192.00, .flt 5020865.00, .flt 367.89, .flt 1.62⟩,
    ⟨.flt 365069.00, .flt 5020722.00, .flt 346.86, .flt 1.62⟩, ⟨.flt 371659.00, .flt 5024034.00, .flt 341.68, .flt 1.62⟩,
    ⟨.flt 365326.00, .flt 5023815.00, .flt 343.51, .flt 1.62⟩, ⟨.flt 368888.00, .flt 5023682.00, .flt 352.04, .flt 1.62⟩,
    ⟨.flt 365373.00, .flt 5024920.00, .flt 352.65, .flt 1.62⟩, ⟨.flt 372415.00, .flt 5034551.00, .flt 360.58, .flt 1.62⟩,
    ⟨.flt 374026.00, .flt 5030824.00, .flt 354.48, .flt 1.62⟩, ⟨.flt 371593.00, .flt 5023708.00, .flt 345.64, .flt 1.62⟩,
    ⟨.flt 374023.00, .flt 5029532.00, .flt 353.26, .flt 1.62⟩, ⟨.flt 374708.00, .flt 5028950.00, .flt 344.73, .flt 1.62⟩,
    ⟨.flt 360793.00, .flt 5033952.00, .flt 384.05, .flt 1.62⟩, ⟨.flt 371742.00, .flt 5025544.00, .flt 340.46, .flt 1.62⟩,
    ⟨.flt 371370.00, .flt 5024888.00, .flt 343.51, .flt 1.62⟩, ⟨.flt 363777.00, .flt 5029947.00, .flt 369.11, .flt 1.62⟩,
    ⟨.flt 371750.00, .flt 5025580.00, .flt 341.07, .flt 1.62⟩, ⟨.flt 372991.00, .flt 5024368.00, .flt 350.22, .flt 1.62⟩,
    ⟨.flt 366886.00, .flt 5026040.00, .flt 352.04, .flt 1.62⟩, ⟨.flt 366745.00, .flt 5026484.00, .flt 350.82, .flt 1.62⟩,
    ⟨.flt 366631.00, .flt 5026508.00, .flt 351.43, .flt 1.62⟩, ⟨.flt 367954.00, .flt 5027402.00, .flt 347.47, .flt 1.62⟩,
    ⟨.flt 374538.00, .flt 5021701.00, .flt 355.09, .flt 1.62⟩, ⟨.flt 366045.00, .flt 5024802.00, .flt 347.78, .flt 1.62⟩,
    ⟨.flt 371197.00, .flt 5023498.00, .flt 352.96, .flt 1.62⟩, ⟨.flt 362456.00, .flt 5021394.00, .flt 346.56, .flt 1.62⟩,
    ⟨.flt 371603.00, .flt 5025830.00, .flt 336.19, .flt 1.62⟩, ⟨.flt 365265.00, .flt 5026040.00, .flt 352.35, .flt 1.62⟩]

/-- data/paynesville.py:1-243 -/
def paynesvilleData : DataSet where
  projectname := "Paynesville example"
  target := 0
  npaths := 200
  duration := .flt 3652.5
  nrealizations := 200
  base := .flt 0.0
  cDist := .tup [.flt 10.0, .flt 20.0, .flt 40.0]
  pDist := .num (.flt 0.25)
  tDist := .tup [.flt 5.0, .flt 10.0]
  wells := paynesvilleDataWells
  observations := paynesvilleDataObs
  buffer := .int 100
  spacing := .int 2
  umbra := .int 4
  smooth := .int 2
  confined := true
  tol := .int 1
  maxstep := .int 10

/-- data/perham.py:22-53 -/
def perhamDataWells : List LitWell := [
    ⟨.int 302338, .int 5162551, .flt 0.2, .num (.int 1372)⟩, ⟨.int 302320, .int 5162497, .flt 0.2, .num (.int 914)⟩,
    ⟨.int 303063, .int 5163421, .flt 0.2, .num (.int 321)⟩, ⟨.int 303076, .int 5163430, .flt 0.2, .num (.int 288)⟩,
    ⟨.int 303371, .int 5165863, .int 1, .num (.flt 237.70)⟩, ⟨.int 298697, .int 5165187, .int 1, .num (.flt 264.90)⟩,
    ⟨.int 303496, .int 5165806, .int 1, .num (.flt 253.69)⟩, ⟨.int 302519, .int 5161144, .int 1, .num (.flt 435.75)⟩,
    ⟨.int 303216, .int 5160419, .int 1, .num (.flt 343.79)⟩, ⟨.int 297985, .int 5162970, .int 1, .num (.flt 343.99)⟩,
    ⟨.int 300129, .int 5162793, .int 1, .num (.flt 436.17)⟩, ⟨.int 300764, .int 5164436, .int 1, .num (.flt 296.66)⟩,
    ⟨.int 301424, .int 5163588, .int 1, .num (.flt 284.83)⟩, ⟨.int 300725, .int 5162217, .int 1, .num (.flt 402.74)⟩,
    ⟨.int 298294, .int 5160592, .int 1, .num (.flt 208.22)⟩, ⟨.int 301920, .int 5165290, .int 1, .num (.flt 275.28)⟩,
    ⟨.int 299946, .int 5164412, .int 1, .num (.flt 220.68)⟩, ⟨.int 303554, .int 5161918, .int 1, .num (.flt 329.88)⟩,
    ⟨.int 299031, .int 5164454, .int 1, .num (.flt 349.18)⟩, ⟨.int 299594, .int 5166936, .int 1, .num (.flt 269.46)⟩,
    ⟨.int 303217, .int 5163200, .int 1, .num (.flt 747.57)⟩, ⟨.int 304120, .int 5165050, .int 1, .num (.flt 414.99)⟩,
    ⟨.int 301376, .int 5163584, .int 1, .num (.flt 315.76)⟩, ⟨.int 299977, .int 5163625, .int 1, .num (.flt 353.54)⟩,
    ⟨.int 303269, .int 5163114, .int 1, .num (.flt 1702.74)⟩, ⟨.int 298417, .int 5166145, .int 1, .num (.flt 260.95)⟩,
    ⟨.int 300835, .int 5166454, .int 1, .num (.flt 281.92)⟩, ⟨.int 301781, .int 5165652, .int 1, .num (.flt 264.07)⟩,
    ⟨.int 301545, .int 5162789, .int 1, .num (.flt 526.06)⟩]

/-- data/perham.py:55-158 -/
def perhamDataObs : List LitObs := [
    ⟨.int 301201, .flt 5.16689e+06, .int 406, .flt 1.62⟩, ⟨.int 301340, .flt 5.16647e+06, .int 406, .flt 1.62⟩,
    ⟨.int 301853, .flt 5.16632e+06, .int 407, .flt 1.62⟩, ⟨.int 302227, .flt 5.16653e+06, .int 406, .flt 1.62⟩,
    ⟨.int 302768, .flt 5.16659e+06, .int 406, .flt 1.62⟩, ⟨.int 303226, .flt 5.16646e+06, .int 406, .flt 1.62⟩,
    ⟨.int 303822, .flt 5.16613e+06, .int 406, .flt 1.62⟩, ⟨.int 304654, .flt 5.16635e+06, .int 406, .flt 1.62⟩,
    ⟨.int 305305, .flt 5.16667e+06, .int 406, .flt 1.62⟩, ⟨.int 306928, .flt 5.16652e+06, .int 405, .flt 1.62⟩,
    ⟨.int 306914, .flt 5.16574e+06, .int 405, .flt 1.62⟩, ⟨.int 307039, .flt 5.16523e+06, .int 405, .flt 1.62⟩,
    ⟨.int 307122, .flt 5.16445e+06, .int 405, .flt 1.62⟩, ⟨.int 307580, .flt 5.16385e+06, .int 405, .flt 1.62⟩,
    ⟨.int 307829, .flt 5.16341e+06, .int 405, .flt 1.62⟩, ⟨.int 308384, .flt 5.16298e+06, .int 405, .flt 1.62⟩,
    ⟨.int 308883, .flt 5.16237e+06, .int 405, .flt 1.62⟩, ⟨.int 309354, .flt 5.16213e+06, .int 405, .flt 1.62⟩,
    ⟨.int 307344, .flt 5.16247e+06, .int 405, .flt 1.62⟩, ⟨.int 305916, .flt 5.16255e+06, .int 405, .flt 1.62⟩,
    ⟨.int 306734, .flt 5.16236e+06, .int 405, .flt 1.62⟩, ⟨.int 305652, .flt 5.16205e+06, .int 405, .flt 1.62⟩,
    ⟨.int 305333, .flt 5.16184e+06, .int 405, .flt 1.62⟩, ⟨.int 305389, .flt 5.16146e+06, .int 405, .flt 1.62⟩,
    ⟨.int 305208, .flt 5.16118e+06, .int 405, .flt 1.62⟩, ⟨.int 305472, .flt 5.1608e+06, .int 405, .flt 1.62⟩,
    ⟨.int 305569, .flt 5.16032e+06, .int 408, .flt 1.62⟩, ⟨.int 305070, .flt 5.16015e+06, .int 405, .flt 1.62⟩,
    ⟨.int 305472, .flt 5.15974e+06, .int 404, .flt 1.62⟩, ⟨.int 305486, .flt 5.15882e+06, .int 403, .flt 1.62⟩,
    ⟨.int 305305, .flt 5.15849e+06, .int 403, .flt 1.62⟩, ⟨.int 305597, .flt 5.15784e+06, .int 403, .flt 1.62⟩,
    ⟨.int 306512, .flt 5.15664e+06, .int 405, .flt 1.62⟩, ⟨.int 305819, .flt 5.15678e+06, .int 405, .flt 1.62⟩,
    ⟨.int 306054, .flt 5.1558e+06, .int 404, .flt 1.62⟩, ⟨.int 306567, .flt 5.15451e+06, .int 405, .flt 1.62⟩,
    ⟨.int 306484, .flt 5.15302e+06, .int 403, .flt 1.62⟩, ⟨.int 305819, .flt 5.15322e+06, .int 403, .flt 1.62⟩,
    ⟨.int 305347, .flt 5.15322e+06, .int 403, .flt 1.62⟩, ⟨.int 304584, .flt 5.15312e+06, .int 403, .flt 1.62⟩,
    ⟨.int 304099, .flt 5.15283e+06, .int 403, .flt 1.62⟩, ⟨.int 303655, .flt 5.15268e+06, .int 403, .flt 1.62⟩,
    ⟨.int 303517, .flt 5.15348e+06, .int 404, .flt 1.62⟩, ⟨.int 302435, .flt 5.15383e+06, .int 406, .flt 1.62⟩,
    ⟨.int 301548, .flt 5.15409e+06, .int 408, .flt 1.62⟩, ⟨.int 300674, .flt 5.15459e+06, .int 406, .flt 1.62⟩,
    ⟨.int 300092, .flt 5.15455e+06, .int 406, .flt 1.62⟩, ⟨.int 298816, .flt 5.15474e+06, .int 406, .flt 1.62⟩,
    ⟨.int 298192, .flt 5.15613e+06, .int 406, .flt 1.62⟩, ⟨.int 297859, .flt 5.15717e+06, .int 406, .flt 1.62⟩,
    ⟨.int 296889, .flt 5.15734e+06, .int 406, .flt 1.62⟩, ⟨.int 295876, .flt 5.15698e+06, .int 406, .flt 1.62⟩,
    ⟨.int 294698, .flt 5.15703e+06, .int 406, .flt 1.62⟩, ⟨.int 294088, .flt 5.157e+06, .int 406, .flt 1.62⟩,
    ⟨.int 292867, .flt 5.1568e+06, .int 406, .flt 1.62⟩, ⟨.int 292743, .flt 5.15623e+06, .int 406, .flt 1.62⟩,
    ⟨.int 294115, .flt 5.16e+06, .int 412, .flt 1.62⟩, ⟨.int 293270, .flt 5.16014e+06, .int 412, .flt 1.62⟩,
    ⟨.int 292729, .flt 5.16062e+06, .int 412, .flt 1.62⟩, ⟨.int 296098, .flt 5.16026e+06, .int 420, .flt 1.62⟩,
    ⟨.int 291994, .flt 5.15803e+06, .int 411, .flt 1.62⟩, ⟨.int 289983, .flt 5.15989e+06, .int 412, .flt 1.62⟩,
    ⟨.int 289650, .flt 5.16089e+06, .int 412, .flt 1.62⟩, ⟨.int 290080, .flt 5.16193e+06, .int 412, .flt 1.62⟩,
    ⟨.int 289942, .flt 5.16299e+06, .int 412, .flt 1.62⟩, ⟨.int 290261, .flt 5.16354e+06, .int 412, .flt 1.62⟩,
    ⟨.int 292119, .flt 5.16223e+06, .int 412, .flt 1.62⟩, ⟨.int 291786, .flt 5.16071e+06, .int 412, .flt 1.62⟩,
    ⟨.int 290774, .flt 5.16097e+06, .int 412, .flt 1.62⟩, ⟨.int 291231, .flt 5.15961e+06, .int 412, .flt 1.62⟩,
    ⟨.int 291009, .flt 5.16216e+06, .int 412, .flt 1.62⟩, ⟨.int 291467, .flt 5.1629e+06, .int 412, .flt 1.62⟩,
    ⟨.int 293020, .flt 5.16338e+06, .int 412, .flt 1.62⟩, ⟨.int 293547, .flt 5.16413e+06, .int 412, .flt 1.62⟩,
    ⟨.int 293200, .flt 5.16369e+06, .int 412, .flt 1.62⟩, ⟨.int 292202, .flt 5.16505e+06, .int 412, .flt 1.62⟩,
    ⟨.int 293186, .flt 5.16492e+06, .int 412, .flt 1.62⟩, ⟨.int 294115, .flt 5.16532e+06, .int 412, .flt 1.62⟩,
    ⟨.int 294393, .flt 5.16578e+06, .int 412, .flt 1.62⟩, ⟨.int 294462, .flt 5.16474e+06, .int 412, .flt 1.62⟩,
    ⟨.int 294781, .flt 5.16509e+06, .int 412, .flt 1.62⟩, ⟨.int 295225, .flt 5.16521e+06, .int 412, .flt 1.62⟩,
    ⟨.int 296126, .flt 5.16523e+06, .int 411, .flt 1.62⟩, ⟨.int 294809, .flt 5.16433e+06, .int 412, .flt 1.62⟩,
    ⟨.int 295349, .flt 5.16399e+06, .int 412, .flt 1.62⟩, ⟨.int 295668, .flt 5.16359e+06, .int 413, .flt 1.62⟩,
    ⟨.int 296445, .flt 5.16331e+06, .int 417, .flt 1.62⟩, ⟨.int 296459, .flt 5.16374e+06, .int 414, .flt 1.62⟩,
    ⟨.int 296223, .flt 5.1667e+06, .int 411, .flt 1.62⟩, ⟨.int 296750, .flt 5.16708e+06, .int 411, .flt 1.62⟩,
    ⟨.int 297305, .flt 5.16722e+06, .int 411, .flt 1.62⟩, ⟨.int 296833, .flt 5.16632e+06, .int 411, .flt 1.62⟩,
    ⟨.int 298830, .flt 5.16677e+06, .int 409, .flt 1.62⟩, ⟨.int 300217, .flt 5.16656e+06, .int 410, .flt 1.62⟩,
    ⟨.int 303900, .flt 5.16106e+06, .int 411, .flt 1.62⟩, ⟨.int 304112, .flt 5.16121e+06, .int 411, .flt 1.62⟩,
    ⟨.int 300725, .flt 5.16269e+06, .int 409, .flt 1.62⟩, ⟨.int 301252, .flt 5.16211e+06, .int 410, .flt 1.62⟩,
    ⟨.int 301558, .flt 5.16188e+06, .int 410, .flt 1.62⟩, ⟨.int 300508, .flt 5.16178e+06, .int 415, .flt 1.62⟩,
    ⟨.int 299837, .flt 5.16244e+06, .int 415, .flt 1.62⟩, ⟨.int 300586, .flt 5.16313e+06, .int 409, .flt 1.62⟩]

/-- data/perham.py:1-158 -/
def perhamData : DataSet where
  projectname := "Perham example"
  target := 0
  npaths := 200
  duration := .flt 3652.5
  nrealizations := 200
  base := .flt 0.0
  cDist := .tup [.flt 12.0, .flt 65.0, .flt 120.0]
  pDist := .tup [.flt 0.20, .flt 0.25]
  tDist := .tup [.int 10, .int 20, .int 30]
  wells := perhamDataWells
  observations := perhamDataObs
  buffer := .int 100
  spacing := .int 4
  umbra := .int 8
  smooth := .int 2
  confined := true
  tol := .int 1
  maxstep := .int 10

/-- The shipped data modules: name and contents. (data/barnesville.py:1, data/basic.py:1, data/basic_deterministic.py:1, data/carlos.py:1, data/long_prairie.py:1, data/paynesville.py:1, data/perham.py:1, each to the end) -/
def shipped : List (String × DataSet) := [
  ("data.basic", basicData),
  ("data.basic_deterministic", basicDeterministicData),
  ("data.carlos", carlosData),
  ("data.barnesville", barnesvilleData),
  ("data.long_prairie", longPrairieData),
  ("data.paynesville", paynesvilleData),
  ("data.perham", perhamData)]

end Oneka
