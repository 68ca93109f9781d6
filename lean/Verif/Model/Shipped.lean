/-
  The input files of the example program that are part of the repository, and what string streams read from their lines.

  Extraction by `>>` follows the C++ standard for the decimal notations that occur: white space is skipped, a word goes up
  to the next white space, a number has an optional sign, digits with an optional point and an optional exponent.  Numbers
  are taken exactly (no rounding to doubles); hexadecimal numbers, infinities and signs before unsigned numbers are not
  modelled.
-/
import Verif.Model.Driver

namespace Ecm

/-- the digits at the beginning: value, number of digits, rest -/
def readDigits : List Char → ℕ × ℕ × List Char
  | [] => (0, 0, [])
  | c :: l =>
    if c.isDigit then
      let r := readDigits l
      ((c.toNat - '0'.toNat) * 10 ^ r.2.1 + r.1, r.2.1 + 1, r.2.2)
    else (0, 0, c :: l)

/-- an optional sign: whether there is a minus, rest -/
def readSign : List Char → Bool × List Char
  | '-' :: l => (true, l)
  | '+' :: l => (false, l)
  | l => (false, l)

/-- an optional point with digits: value, number of digits, rest -/
def readFraction : List Char → ℕ × ℕ × List Char
  | '.' :: l => readDigits l
  | l => (0, 0, l)

/-- an optional exponent, rest; `none` for an exponent without digits -/
def readExponent : List Char → Option (ℤ × List Char)
  | 'e' :: l | 'E' :: l =>
    let s := readSign l
    let d := readDigits s.2
    if d.2.1 = 0 then none else some (if s.1 then -(d.1 : ℤ) else d.1, d.2.2)
  | l => some (0, l)

/-- `iss >> x` for a double x (orientation_evolution.cxx:234, 258): `some (m, k, rest)` for the number `m * 10^k` -/
def readDouble (l : List Char) : Option (ℤ × ℤ × List Char) :=
  let s := readSign (l.dropWhile Char.isWhitespace)
  let a := readDigits s.2
  let b := readFraction a.2.2
  if a.2.1 + b.2.1 = 0 then none
  else
    (readExponent b.2.2).map fun e =>
      let m : ℤ := (a.1 * 10 ^ b.2.1 + b.1 : ℕ)
      (if s.1 then -m else m, e.1 - b.2.1, e.2)

/-- the number with mantissa and exponent -/
noncomputable def decimal (m k : ℤ) : ℝ := m * (10 : ℝ) ^ k

/-- `iss >> tmp_str >> quat_nrand` (orientation_evolution.cxx:193) -/
def readHeader (l : List Char) : Option (String × { k : ℕ // k < 2 ^ 32 }) :=
  let l := l.dropWhile Char.isWhitespace
  let word := l.takeWhile fun c => !c.isWhitespace
  let d := readDigits ((l.dropWhile fun c => !c.isWhitespace).dropWhile Char.isWhitespace)
  if word.isEmpty ∨ d.2.1 = 0 then none
  else if h : d.1 < 2 ^ 32 then some (String.ofList word, ⟨d.1, h⟩)
  else none

/-- four numbers (orientation_evolution.cxx:234) -/
def readFour (l : List Char) : Option ((ℤ × ℤ) × (ℤ × ℤ) × (ℤ × ℤ) × (ℤ × ℤ)) := do
  let a ← readDouble l
  let b ← readDouble a.2.2
  let c ← readDouble b.2.2
  let d ← readDouble c.2.2
  return ((a.1, a.2.1), (b.1, b.2.1), (c.1, c.2.1), (d.1, d.2.1))

/-- extraction from the lines of the input files -/
noncomputable def stdReader : Reader where
  header s := readHeader s.toList
  quat s := (readFour s.toList).map fun q =>
    ![decimal q.1.1 q.1.2, decimal q.2.1.1 q.2.1.2, decimal q.2.2.1.1 q.2.2.1.2, decimal q.2.2.2.1 q.2.2.2.2]
  prop s := (readDouble s.toList).map fun a => decimal a.1 a.2.1

/-- miniapp/option_cpu.txt, option_openmp.txt, option_gpu.txt, rand_quats_cpu.txt, rand_quats_openmp.txt,
    rand_quats_gpu.txt and props.txt, in the working directory; there is no other file (of those in the directory no other
    is meant as input, except 1k_quats.txt, which no option file names) -/
def shippedFiles (name : String) : List String :=
  if name = "./option_cpu.txt" then ["./rand_quats_cpu.txt", "voce", "./props.txt", "CPU", "", "", ""]
  else if name = "./option_openmp.txt" then ["./rand_quats_openmp.txt", "voce", "./props.txt", "OpenMP", "", "", ""]
  else if name = "./option_gpu.txt" then ["./rand_quats_gpu.txt", "voce", "./props.txt", "GPU", "", "", ""]
  else if name = "./rand_quats_cpu.txt" then ["#random 50000"]
  else if name = "./rand_quats_openmp.txt" then ["#random 350000"]
  else if name = "./rand_quats_gpu.txt" then ["#random 350000"]
  else if name = "./props.txt" then
    ["8.920e-6", "0.003435984", "1.0e-10", "168.4e3", "121.4e3", "75.2e3", "44.0e3", "0.02e0", "1.0e0", "400.0e0", "17.0e0",
      "122.4e0", "0.0", "5.0e9", "17.0e0", "0.0", "-1.0307952"]
  else []

end Ecm
