import Verif.Model.Base
import Mathlib.Analysis.SpecialFunctions.Log.Basic
import Mathlib.Analysis.Real.Pi.Bounds
/-!
The thermal motion of atoms: `packages/mccomponents/python/mccomponents/sample/vogel.py`,
`packages/mccomponents/python/mccomponents/sample/DebyeTemp.py`,
`packages/mccomponents/python/mccomponents/sample/atomic_scattering.py`.

Simplified: real numbers instead of doubles.
-/

namespace Verif.Debye
noncomputable section
open Classical

/-- `sum_series` of `phi1`, `vogel.py:11-14`: `np.arange(1., 35.)` are the numbers 1, ..., 34 -/
def series1 (theta : ℝ) : ℝ := ((List.range 34).map fun (i : ℕ) => let n : ℝ := (i : ℝ) + 1; 1 / Real.exp (n / theta) / n / n).sum

/-- `phi1`, `vogel.py:10-15`; `-1/theta1` is a division of python numbers (`theta1` is `1.*T/TD`), which raises an exception for 0 -/
def phi1 (theta : ℝ) : Except Err ℝ :=
  if theta = 0 then .error .zeroDivision
  else .ok (1 / 2 + 2 * (theta * Real.log (1 - Real.exp (-1 / theta)) + theta ^ 2 * (Real.pi ^ 2 / 6 - series1 theta)))

/-- `sum_series` of `phi3`, `vogel.py:19-23` -/
def series3 (theta : ℝ) : ℝ := ((List.range 34).map fun (i : ℕ) => let n : ℝ := (i : ℝ) + 1; let tmp := theta / n;
  (1 / 2 + tmp + tmp * tmp) / Real.exp (n / theta) / n / n).sum

/-- `phi3`, `vogel.py:18-24` -/
def phi3 (theta : ℝ) : Except Err ℝ :=
  if theta = 0 then .error .zeroDivision
  else .ok (1 / 4 + 2 * (theta * Real.log (1 - Real.exp (-1 / theta)) + 6 * theta ^ 2 * (Real.pi ^ 4 / 90 * theta ^ 2 - series3 theta)))

/-- `table`, `DebyeTemp.py:11-20` -/
def table : List (String × ℝ) :=
  [("Li", 344), ("Be", 1440), ("C", 2230), ("Ne", 75),
   ("Na", 158), ("Mg", 400), ("Al", 428), ("Si", 645), ("Ar", 92),
   ("K", 91), ("Ca", 230), ("Sc", 360), ("Ti", 420), ("V", 380), ("Cr", 630), ("Mn", 410), ("Fe", 470), ("Co", 445), ("Ni", 450), ("Cu", 343),
   ("Zn", 327), ("Ga", 320), ("Ge", 374), ("As", 282), ("Se", 90), ("Kr", 72),
   ("Rb", 56), ("Sr", 147), ("Y", 280), ("Zr", 291), ("Nb", 275), ("Mo", 450), ("Ru", 600), ("Rh", 480), ("Pd", 274), ("Ag", 225), ("Cd", 209),
   ("In", 108), ("Sn", 200), ("Sb", 211), ("Te", 153), ("Xe", 64),
   ("Cs", 38), ("Ba", 110), ("La", 142), ("Hf", 252), ("Ta", 240), ("W", 400), ("Re", 430), ("Os", 500), ("Ir", 420), ("Pt", 240), ("Au", 165),
   ("Hg", 71.9), ("Tl", 78.5), ("Pb", 105), ("Bi", 119),
   ("Gd", 200), ("Dy", 210), ("Yb", 120), ("Lu", 210),
   ("Th", 163), ("U", 207)]

/-- `getT`, `DebyeTemp.py:7-8` -/
def getT (element : String) : Option ℝ := table.lookup element

/-- `getDebyeTemp`, `atomic_scattering.py:48-55`, without the warning -/
def getDebyeTemp (element : String) : ℝ := (getT element).getD 1000

/-- `keepletters`, `atomic_scattering.py:57-58`: `isalpha` of python is restricted to ASCII -/
def keepletters (s : String) : String := String.ofList (s.toList.filter Char.isAlpha)

/-- `h`, `atomic_scattering.py:60` -/
def h : ℝ := 6.62607004e-34

/-- `kB`, `atomic_scattering.py:61` -/
def kB : ℝ := 1.38064852e-23

/-- `AA`, `atomic_scattering.py:62` -/
def AA : ℝ := 1e-10

/-- `amu`, `atomic_scattering.py:63` -/
def amu : ℝ := 1.660539040e-27

/-- `AtomicScattering.theta`, `atomic_scattering.py:33-36` -/
def theta (element : String) (T : ℝ) : ℝ := 1 * T / getDebyeTemp element

/-- `AtomicScattering.B`, `atomic_scattering.py:38-46`; `mass` is that of the package periodictable, which is asked with the letters of the name
only; no element of the table has the temperature 0 -/
def B (mass : String → Option ℝ) (element : String) (T : ℝ) : Except Err ℝ :=
  match mass (keepletters element) with
  | none => .error .attributeError
  | some m => do
    let T_D := getDebyeTemp element
    let rt := 3 * h * h * (← phi1 (theta element T)) / (m * amu * kB * T_D)
    .ok (rt / AA / AA)

end
end Verif.Debye
