/-
  What the code writes: numbers sent to a stream, the log of the parameters (ECMech_matModelBase.h:12-13, 57-70) and the
  output of the example program (miniapp/orientation_evolution.cxx:303, 354, 365, 543-548, 555-558).

  Output of a double by `<<` follows the C++ standard (printf with `%g`): the number is rounded to `P` significant digits,
  written without exponent if the decimal exponent `X` satisfies -4 <= X < P and with an exponent of at least two digits
  otherwise, without zeros at the end of the fraction.  The streams have their default precision P = 6; nothing sets
  another one before these outputs.  `rnd` rounds to a nearest integer; the standard leaves open what happens half way
  between two.  Not modelled: infinities, NaN, the sign of a negative zero.
-/
import Verif.Model.Driver
import Mathlib.Data.Int.Log

namespace Ecm

/-- the last `w` decimal digits of `m` -/
def digitsW : ℕ → ℕ → List Char
  | 0, _ => []
  | w + 1, m => digitsW w (m / 10) ++ [Nat.digitChar (m % 10)]

/-- a natural number -/
def natText (m : ℕ) : List Char := digitsW (Nat.log 10 m + 1) m

/-- an integer -/
def intText (m : ℤ) : List Char := (if m < 0 then ['-'] else []) ++ natText m.natAbs

/-- the zeros at the end are left out -/
def dropZeros : List Char → List Char
  | [] => []
  | c :: l => if dropZeros l = [] ∧ c = '0' then [] else c :: dropZeros l

/-- a fraction with its point; nothing if there are only zeros -/
def fracOut (l : List Char) : List Char := if dropZeros l = [] then [] else '.' :: dropZeros l

/-- rounding of a positive number to `P` digits: the number `m * 10^(X - P + 1)` as `(m, X)` -/
noncomputable def gRound (rnd : ℝ → ℤ) (P : ℕ) (y : ℝ) : ℕ × ℤ :=
  let e := Int.log 10 y
  let m := (rnd (y / 10 ^ (e - P + 1))).toNat
  if m = 10 ^ P then (10 ^ (P - 1), e + 1) else (m, e)

/-- the `P` digits `m` with the exponent `X` of the first one -/
def gDigits (P m : ℕ) (X : ℤ) : List Char :=
  if -4 ≤ X ∧ X < P then
    let D := (P - 1 - X).toNat
    digitsW (max 1 (X + 1).toNat) (m / 10 ^ D) ++ fracOut (digitsW D (m % 10 ^ D))
  else
    digitsW 1 (m / 10 ^ (P - 1)) ++ (fracOut (digitsW (P - 1) (m % 10 ^ (P - 1)))
      ++ ('e' :: (if X < 0 then '-' else '+') :: digitsW (max 2 (Nat.log 10 X.natAbs + 1)) X.natAbs))

open Classical in
/-- `oss << x` for a double (ECMech_matModelBase.h:13, orientation_evolution.cxx:545) -/
noncomputable def gText (rnd : ℝ → ℤ) (P : ℕ) (x : ℝ) : List Char :=
  (if x < 0 then ['-'] else []) ++
    (if x = 0 then ['0'] else gDigits P (gRound rnd P |x|).1 (gRound rnd P |x|).2)

/-- ECMech_matModelBase.h:12-13 DUMPVECOSS -/
def dumpVec (name : List Char) (l : List (List Char)) : List Char :=
  name ++ " : ".toList ++ List.intercalate ", ".toList l ++ ['\n']

/-- ECMech_matModelBase.h:61-70 logParameters (not redefined by matModel) -/
noncomputable def MM.logParameters (rnd : ℝ → ℤ) {T : MType} (m : MM T) : List Char :=
  "evptn constitutive model\n".toList ++ (dumpVec "  opts".toList (m.getParams.1.map intText)
    ++ (dumpVec "  pars".toList (m.getParams.2.1.map (gText rnd 6))
      ++ dumpVec "  strs".toList (m.getParams.2.2.map String.toList)))

/-- orientation_evolution.cxx:543-548: the line of step `i` (counted from zero) without its end -/
noncomputable def stepLine (rnd : ℝ → ℤ) (i : ℕ) (s : Vec 6) : List Char :=
  "Step# ".toList ++ (natText (i + 1) ++ (" Stress: ".toList
    ++ (List.ofFn fun j => gText rnd 6 (s j) ++ [' ']).flatten))

/-- orientation_evolution.cxx:303, 354, 365, 543-548, 555-558: the standard output of a run that reaches its end, by
    lines, `out` being the averages and `time` the time measured; NEVALS_COUNTS is off -/
noncomputable def drvOutput (rnd : ℝ → ℤ) (out : List (Vec 6)) (time : ℝ) : List (List Char) :=
  [[], "About to initialize class".toList, "Class has been completely initialized".toList, "Data is now initialized".toList]
    ++ (out.mapIdx (stepLine rnd)
    ++ [[], "Run time of set-up, material, and retrieve kernels over ".toList ++ (natText drvSteps ++
      (" time steps is: ".toList ++ (gText rnd 6 time ++ "(s)".toList)))])

end Ecm
