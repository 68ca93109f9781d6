/-
  Model of the strides and of the batch loop in src/ecmech/ECMech_evptnWrap.h (matModel constructors,
  getResponseECM).

  The arrays of the caller are flat and separate from each other.  A point reads and writes its
  windows as one unit (the body of the loop); the points are taken in an arbitrary order, which covers
  the sequential loop (order 0, 1, 2, …) and, since windows of different points do not meet (proved in
  Props/Batch.lean), the parallel loops.  On the device ECMECH_FAIL only prints; here a failure ends
  the loop, as on the host (ECMech_port.h:27).
-/
import Verif.Model.Response

namespace Ecm
open Classical

/-- a flat array of the caller: number of elements behind the pointer, and contents -/
structure Buf where
  len : ℕ
  val : ℕ → ℝ

/-- the `k` elements from offset `o` on -/
def Buf.win (b : Buf) (o k : ℕ) : Vec k := fun j => b.val (o + j)

/-- the array after `k` elements from offset `o` on have been overwritten -/
def Buf.put {k : ℕ} (b : Buf) (o : ℕ) (v : Vec k) : Buf where
  len := b.len
  val := fun a => if h : o ≤ a ∧ a < o + k then v ⟨a - o, by omega⟩ else b.val a

/-- the member `_strides` with its eight entries in the order of the ISTRIDE_* macros
    (ECMech_const.h:57-65, ECMech_evptnWrap.h:440); unsigned 32-bit values -/
structure Strides where
  defRate : ℕ
  spin : ℕ
  volRatio : ℕ
  intEng : ℕ
  stress : ℕ
  history : ℕ
  tkelv : ℕ
  sdd : ℕ

/-- ECMech_evptnWrap.h:40-53: strides of the default constructor -/
def Strides.default (nHist : ℕ) : Strides where
  defRate := 7
  spin := 3
  volRatio := 4
  intEng := 1
  stress := 7
  history := nHist
  tkelv := 1
  sdd := 2

/-- ECMech_evptnWrap.h:80-81 and, with other names and lengths, 89-90, 98-99, 107-108, 116-117, 125-126, 134-135,
    143-144: the message about a stride -/
def strideMsg (name : String) (need : ℕ) : String :=
  "strides[" ++ name ++ "] should have at least a length of: " ++ toString need

/-- ECMech_evptnWrap.h:67-70: the message about the number of strides -/
def stridesMsg (nHist : ℕ) : String :=
  "Stride vector needs to have a size of 8 with strides of at least: 7, 3, 4, 1, 7, " ++ toString nHist ++ ", 1, 2"

/-- ECMech_evptnWrap.h:57-152: the constructor with strides.  `strides` are the elements behind the
    pointer; `strideLen` is the length claimed by the caller.  Reading behind the end is `undef`.
    The message for the volume ratio has the name of the internal energy (line 98). -/
def Strides.ctor (nHist : ℕ) (strides : List ℕ) (strideLen : ℕ) : Out Strides :=
  if strideLen ≠ 8 then .fail (stridesMsg nHist)
  else
    match strides with
    | s0 :: s1 :: s2 :: s3 :: s4 :: s5 :: s6 :: s7 :: _ =>
      if s0 < 7 then .fail (strideMsg "istride_def_rate" 7)
      else if s1 < 3 then .fail (strideMsg "istride_spin_v" 3)
      else if s2 < 4 then .fail (strideMsg "istride_int_eng" 4)
      else if s3 < 1 then .fail (strideMsg "istride_int_eng" 1)
      else if s4 < 7 then .fail (strideMsg "istride_stress" 7)
      else if s5 < nHist then .fail (strideMsg "istride_history" nHist)
      else if s6 < 1 then .fail (strideMsg "istride_tkelv" 1)
      else if s7 < 2 then .fail (strideMsg "istride_sdd" 2)
      else .ok { defRate := s0, spin := s1, volRatio := s2, intEng := s3, stress := s4
                 history := s5, tkelv := s6, sdd := s7 }
    | _ => .undef "strides read behind the end of the array"

/-- ECMech_evptnWrap.h:322-329 (and 353-360, 376-383): `stride * i` with an unsigned 32-bit stride and
    an int index, computed modulo 2^32 -/
def offU (s i : ℕ) : ℕ := (s * i) % 2 ^ 32

/-- read-only arguments of getResponseECM with the member `_tolerance` (ECMech_evptnWrap.h:286-289,
    321) -/
structure BatchIn where
  dt : ℝ
  tol : ℝ
  defRate : Buf
  spin : Buf
  volRatio : Buf

/-- read-write arguments of getResponseECM (ECMech_evptnWrap.h:290-295); `mtan = none` is the null
    pointer -/
structure BatchMem where
  eInt : Buf
  stress : Buf
  hist : Buf
  tkelv : Buf
  sdd : Buf
  mtan : Option Buf

/-- the arguments of getResponseSngl for point `i`, read-only part (ECMech_evptnWrap.h:320-324) -/
def batchInp (st : Strides) (b : BatchIn) (i : ℕ) : Inputs where
  dt := b.dt
  tol := b.tol
  d := b.defRate.win (offU st.defRate i) 7
  w := b.spin.win (offU st.spin i) 3
  vr := b.volRatio.win (offU st.volRatio i) 4

/-- a six by six matrix in 36 consecutive elements (ECMECH_NN_INDX, ECMech_util.h:24) -/
def matOfWin (v : Vec 36) : Mat 6 6 := fun p q => v ⟨6 * p.val + q.val, by omega⟩

/-- the converse of `matOfWin` -/
def winOfMat (t : Mat 6 6) : Vec 36 := fun k =>
  t ⟨k.val / 6, by omega⟩ ⟨k.val % 6, by omega⟩

/-- the arguments of getResponseSngl for point `i`, read-write part (ECMech_evptnWrap.h:317, 325-330) -/
def batchMem {nH n : ℕ} (st : Strides) (b : BatchMem) (i : ℕ) : Mem nH n where
  eInt := b.eInt.val (offU st.intEng i)
  stress := b.stress.win (offU st.stress i) 7
  hist := b.hist.win (offU st.history i) (numHist nH n)
  tkelv := b.tkelv.val (offU st.tkelv i)
  sdd := b.sdd.win (offU st.sdd i) 2
  mtan := b.mtan.map fun t => matOfWin (t.win (36 * i) 36)

/-- the arrays after point `i` has left its results in its windows -/
def BatchMem.store {nH n : ℕ} (st : Strides) (i : ℕ) (b : BatchMem) (m : Mem nH n) : BatchMem where
  eInt := b.eInt.put (k := 1) (offU st.intEng i) fun _ => m.eInt
  stress := b.stress.put (offU st.stress i) m.stress
  hist := b.hist.put (offU st.history i) m.hist
  tkelv := b.tkelv.put (k := 1) (offU st.tkelv i) fun _ => m.tkelv
  sdd := b.sdd.put (offU st.sdd i) m.sdd
  mtan := match b.mtan, m.mtan with
    | some t, some v => some (t.put (36 * i) (winOfMat v))
    | t, _ => t

/-- what point `i` needs: every window inside its array, and `nsvec2 * i` (ECMech_evptnWrap.h:317, a
    product of ints) not overflowing when a tangent is asked for -/
structure Safe (nHist : ℕ) (st : Strides) (a : BatchIn) (b : BatchMem) (i : ℕ) : Prop where
  defRate : offU st.defRate i + 7 ≤ a.defRate.len
  spin : offU st.spin i + 3 ≤ a.spin.len
  volRatio : offU st.volRatio i + 4 ≤ a.volRatio.len
  eInt : offU st.intEng i + 1 ≤ b.eInt.len
  stress : offU st.stress i + 7 ≤ b.stress.len
  hist : offU st.history i + nHist ≤ b.hist.len
  tkelv : offU st.tkelv i + 1 ≤ b.tkelv.len
  sdd : offU st.sdd i + 2 ≤ b.sdd.len
  mtan : ∀ t, b.mtan = some t → 36 * i < 2 ^ 31 ∧ 36 * i + 36 ≤ t.len

/-- the body of the loop for point `i` (ECMech_evptnWrap.h:317-331, 348-362, 370-384) -/
noncomputable def batchPoint {n nH : ℕ} (X : Ext) (M : Material n nH) (st : Strides) (a : BatchIn)
    (i : ℕ) (b : BatchMem) : Res BatchMem :=
  if Safe (numHist nH n) st a b i then
    match getResponseSngl X M (batchInp st a i) (batchMem st b i) with
    | .ok m => .ok (b.store st i m)
    | .fail s m => .fail s (b.store st i m)
    | .undef w => .undef w
  else .undef "index overflow or access outside an array"

/-- the loop over the points in a given order, up to the first failure
    (ECMech_evptnWrap.h:316, 343, 369) -/
noncomputable def batchLoop {n nH : ℕ} (X : Ext) (M : Material n nH) (st : Strides) (a : BatchIn) :
    List ℕ → BatchMem → Res BatchMem
  | [], b => .ok b
  | i :: l, b =>
    match batchPoint X M st a i b with
    | .ok b' => batchLoop X M st a l b'
    | .fail s b' => .fail s b'
    | .undef w => .undef w

/-- ECMech_evptnWrap.h:286-388 getResponseECM on the sequential path; a negative `nPassed` (the
    argument is an int) is not modelled -/
noncomputable def getResponseECM {n nH : ℕ} (X : Ext) (M : Material n nH) (st : Strides)
    (complete : Bool) (a : BatchIn) (nPassed : ℕ) (b : BatchMem) : Res BatchMem :=
  if complete then batchLoop X M st a (List.range nPassed) b
  else .fail "not complete" b

end Ecm
