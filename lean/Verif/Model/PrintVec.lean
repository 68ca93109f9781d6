/-
  Printing of vectors and matrices in the tests (src/ecmech/ECMech_util.h:1325-1356, compiled with ECMECH_DEBUG on a host).

  A stream is its precision and what has been written.  `setw` holds for one output, `setprecision` until it is set again.
  Numbers are written as in Model/Print.  Not modelled: that std::endl empties the buffer; failures of the stream.
-/
import Verif.Model.Print

namespace Ecm

/-- an output stream (ECMech_util.h:1329, `std::ostream & oss`) -/
structure OStr where
  prec : ℕ
  text : List Char

/-- characters are appended -/
def OStr.chars (o : OStr) (l : List Char) : OStr := { o with text := o.text ++ l }

/-- `std::setw(w)`: filled up with blanks on the left; nothing is cut off (ECMech_util.h:1331) -/
def padLeft (w : ℕ) (l : List Char) : List Char := List.replicate (w - l.length) ' ' ++ l

/-- `oss << x` -/
noncomputable def OStr.num (rnd : ℝ → ℤ) (o : OStr) (x : ℝ) : OStr := o.chars (gText rnd o.prec x)

/-- ECMech_util.h:1331, 1340, 1351: one entry -/
noncomputable def OStr.entry (rnd : ℝ → ℤ) (o : OStr) (x : ℝ) : OStr :=
  let o1 : OStr := { o with prec := 14 }
  (o1.chars (padLeft 21 (gText rnd o1.prec x))).chars [' ']

/-- ECMech_util.h:1327-1335 printVec<n>, 1337-1344 printVec with n as argument (here not negative) -/
noncomputable def printVec (rnd : ℝ → ℤ) (y : ℕ → ℝ) (n : ℕ) (o : OStr) : OStr :=
  ((List.range n).foldl (fun o iX => o.entry rnd (y iX)) o).chars ['\n']

/-- ECMech_util.h:1346-1356 printMat -/
noncomputable def printMat (rnd : ℝ → ℤ) (n : ℕ) (A : ℕ → ℝ) (o : OStr) : OStr :=
  (List.range n).foldl (fun o iX =>
    ((List.range n).foldl (fun o jX => o.entry rnd (A (iX * n + jX))) o).chars ['\n']) o

end Ecm
