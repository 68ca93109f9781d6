/-
  C86: the results of the Python bindings reach the caller, and the example script prints the response of a crystal.
-/
import Verif.Model.PyCall
import Verif.Props.Python
import Verif.Props.Runs
import Mathlib.Analysis.Complex.ExponentialBounds

namespace Ecm.Props
open Ecm Spec Classical

variable {n nH : ℕ}

/-! ### Objects and arrays -/

theorem get_eq (a : PyArr) (idx : List ℕ) : a.get idx = item a idx := rfl

/-- an object that C++ can walk through: every element lies in the allocation, and if the elements are doubles the array
    is contiguous in C order -/
def Proper (o : PyObj) : Prop := Valid o.arr ∧ (o.double = true → CContig o.arr)

/-- the arrays as the caller has them -/
def PyObjs.own (o : PyObjs) : PyArgs where
  defRate := o.defRate.arr
  spin := o.spin.arr
  volRatio := o.volRatio.arr
  eInt := o.eInt.arr
  stress := o.stress.arr
  hist := o.hist.arr
  tkelv := o.tkelv.arr
  sdd := o.sdd.arr

structure ProperObjs (o : PyObjs) : Prop where
  defRate : Proper o.defRate
  spin : Proper o.spin
  volRatio : Proper o.volRatio
  eInt : Proper o.eInt
  stress : Proper o.stress
  hist : Proper o.hist
  tkelv : Proper o.tkelv
  sdd : Proper o.sdd

theorem fresh_check {a : PyArr} {r c : ℤ} : check2D a.fresh r c ↔ check2D a r c := by
  unfold check2D PyArr.fresh
  rfl

theorem convert_check {o : PyObj} {r c : ℤ} : check2D o.convert r c ↔ check2D o.arr r c := by
  unfold PyObj.convert
  split_ifs
  · rfl
  · exact fresh_check

/-- **C86, conversion.** Whatever the element kind, C++ is given a legal contiguous array with the numbers of the
    caller's array. -/
theorem C86_convert {o : PyObj} (h : Proper o) {r c : ℕ} (hs : o.arr.shape = [r, c]) :
    o.convert.shape = [r, c] ∧ Legal o.convert ∧ ∀ i < r, ∀ j < c, item o.convert [i, j] = item o.arr [i, j] := by
  unfold PyObj.convert
  split_ifs with hd
  · exact ⟨hs, ⟨h.1, h.2 hd⟩, fun _ _ _ _ => rfl⟩
  · have hst : o.arr.fresh.strides = [(c : ℤ), 1] := by
      unfold PyArr.fresh
      rw [hs]
      simp [cStrides]
    have hsh : o.arr.fresh.shape = [r, c] := hs
    have hoff : o.arr.fresh.off = 0 := rfl
    have hlen : o.arr.fresh.mem.len = r * c := by
      unfold PyArr.fresh
      rw [hs]
      simp
    have hpos : ∀ i j : ℕ, pos o.arr.fresh [i, j] = ((c * i + j : ℕ) : ℤ) := by
      intro i j
      unfold pos
      rw [hst, hoff]
      simp
    refine ⟨hs, ⟨⟨by rw [hst, hsh]; rfl, ?_⟩, Or.inr ⟨r, c, c, 1, hsh, hst, Or.inr rfl, Or.inr rfl⟩⟩, ?_⟩
    · intro idx hi
      rw [hsh] at hi
      obtain ⟨i, j, rfl, hi, hj⟩ := forall2_two hi
      rw [hpos, hlen]
      have h1 : c * i + j < r * c := by
        calc c * i + j < c * i + c := by omega
          _ = c * (i + 1) := by ring
          _ ≤ c * r := Nat.mul_le_mul_left _ hi
          _ = r * c := by ring
      exact ⟨by positivity, by exact_mod_cast h1⟩
    · intro i hi j hj
      unfold item
      rw [hpos]
      show o.arr.get (unravel o.arr.shape (c * i + j)) = _
      rw [get_eq, hs]
      have e1 : (c * i + j) / c = i := by
        rw [Nat.add_comm, Nat.add_mul_div_left _ _ (by omega), Nat.div_eq_of_lt hj, zero_add]
      have e2 : (c * i + j) % c = j := by
        rw [Nat.add_comm, Nat.add_mul_mod_self_left, Nat.mod_eq_of_lt hj]
      simp only [unravel, List.prod_cons, List.prod_nil, mul_one, e1, e2, Nat.div_one]
      rfl

/-- what C++ has left behind the pointer is what the caller finds -/
theorem write_item {a : PyArr} (h : Legal a) {N c : ℕ} (hc : check2D a (N : ℤ) (c : ℤ)) (b : Buf) :
    ∀ i < N, ∀ j < c, item (a.write b) [i, j] = b.val (c * i + j) := by
  intro i hi j hj
  obtain ⟨-, key⟩ := legal_pos h hc
  have e : pos (a.write b) [i, j] = pos a [i, j] := rfl
  unfold item
  rw [e, key i hi j hj]
  simp only [PyArr.write, Int.toNat_natCast]
  rw [if_pos (by omega)]
  congr 1
  omega

theorem write_legal {a : PyArr} (h : Legal a) (b : Buf) : Legal (a.write b) := h

theorem check_shape {a : PyArr} {r c : ℕ} (h : check2D a (r : ℤ) (c : ℤ)) : a.shape = [r, c] := by
  unfold check2D at h
  split at h
  · rename_i r' c' e
    obtain ⟨h1, h2⟩ := h
    rw [e, Nat.cast_injective h1, Nat.cast_injective h2]
  · exact absurd h (by simp)

theorem checks_args {nHist : ℕ} {o : PyObjs} {N : ℤ} : PyChecks nHist o.args N ↔ PyChecks nHist (PyObjs.own o) N := by
  constructor
  · rintro ⟨h1, h2, h3, h4, h5, h6, h7, h8⟩
    exact ⟨convert_check.1 h1, convert_check.1 h2, convert_check.1 h3, convert_check.1 h4, convert_check.1 h5,
      convert_check.1 h6, convert_check.1 h7, convert_check.1 h8⟩
  · rintro ⟨h1, h2, h3, h4, h5, h6, h7, h8⟩
    exact ⟨convert_check.2 h1, convert_check.2 h2, convert_check.2 h3, convert_check.2 h4, convert_check.2 h5,
      convert_check.2 h6, convert_check.2 h7, convert_check.2 h8⟩

/-- the model uses the material `M` with the tolerance `tol` -/
def Uses {c : Case} (m : MM c.type) (M : Material c.type.nslip c.type.nH) (tol : ℝ) : Prop :=
  ∀ X a N b, m.getResponse X a N b = batchLoop X M (Strides.default c.type.numHist) { a with tol := tol }
    (List.range N) b

theorem call_rows {c : Case} {m : MM c.type} {M : Material c.type.nslip c.type.nH} {tol : ℝ} (hM : Uses m M tol)
    (o : PyObjs) (N : ℕ) (hN : c.type.numHist * N < 2 ^ 32) (hchk : PyChecks c.type.numHist (PyObjs.own o) N)
    (hp : ProperObjs o) (X : Ext) (dt : ℝ) :
    ((∃ o', pyCall X m dt o N = .ok o') ↔
      ∀ i < N, ∃ m', getResponseSngl X M (rowInp (PyObjs.own o) dt tol i) (rowMem (PyObjs.own o) i) = .ok m') ∧
    (∀ w, pyCall X m dt o N = .undef w →
      ∃ i < N, getResponseSngl X M (rowInp (PyObjs.own o) dt tol i) (rowMem (PyObjs.own o) i) = .undef w) ∧
    (∀ o', pyCall X m dt o N = .ok o' → ∃ b, o' = o.after b ∧ ∀ i < N,
      getResponseSngl X M (rowInp (PyObjs.own o) dt tol i) (rowMem (PyObjs.own o) i)
        = .ok (pointMem (Strides.default c.type.numHist) b i)) ∧
    (∀ msg o', pyCall X m dt o N = .fail msg o' → ∃ b, o' = o.after b ∧ ∃ k < N,
      getResponseSngl X M (rowInp (PyObjs.own o) dt tol k) (rowMem (PyObjs.own o) k)
        = .fail msg (pointMem (Strides.default c.type.numHist) b k) ∧
      (∀ i < k, getResponseSngl X M (rowInp (PyObjs.own o) dt tol i) (rowMem (PyObjs.own o) i)
        = .ok (pointMem (Strides.default c.type.numHist) b i)) ∧
      ∀ i < N, k < i → pointMem (Strides.default c.type.numHist) b i
        = (rowMem (PyObjs.own o) i : Mem c.type.nH c.type.nslip)) := by
  have hchk' := checks_args.2 hchk
  obtain ⟨d1, d2, d3⟩ := C86_convert hp.defRate (check_shape (r := N) (c := 7) hchk.defRate)
  obtain ⟨w1, w2, w3⟩ := C86_convert hp.spin (check_shape (r := N) (c := 3) hchk.spin)
  obtain ⟨v1, v2, v3⟩ := C86_convert hp.volRatio (check_shape (r := N) (c := 4) hchk.volRatio)
  obtain ⟨e1, e2, e3⟩ := C86_convert hp.eInt (check_shape (r := N) (c := 1) hchk.eInt)
  obtain ⟨s1, s2, s3⟩ := C86_convert hp.stress (check_shape (r := N) (c := 7) hchk.stress)
  obtain ⟨h1, h2, h3⟩ := C86_convert hp.hist (check_shape hchk.hist)
  obtain ⟨t1, t2, t3⟩ := C86_convert hp.tkelv (check_shape (r := N) (c := 1) hchk.tkelv)
  obtain ⟨q1, q2, q3⟩ := C86_convert hp.sdd (check_shape (r := N) (c := 2) hchk.sdd)
  obtain ⟨-, r1, r2, r3, r4⟩ := solve_rows hM o.args N hN hchk' ⟨d2, w2, v2, e2, s2, h2, t2, q2⟩ X dt
  have hi : ∀ i < N, rowInp o.args dt tol i = rowInp (PyObjs.own o) dt tol i := by
    intro i hi
    unfold rowInp
    congr 1
    · funext j; exact d3 i hi j j.2
    · funext j; exact w3 i hi j j.2
    · funext j; exact v3 i hi j j.2
  have hm : ∀ i < N, (rowMem o.args i : Mem c.type.nH c.type.nslip) = rowMem (PyObjs.own o) i := by
    intro i hi
    unfold rowMem
    congr 1
    · exact e3 i hi 0 one_pos
    · funext j; exact s3 i hi j j.2
    · funext j; exact h3 i hi j j.2
    · exact t3 i hi 0 one_pos
    · funext j; exact q3 i hi j j.2
  refine ⟨?_, ?_, ?_, ?_⟩
  · refine Iff.trans ?_ (r1.trans (forall₂_congr fun i hiN => by rw [hi i hiN, hm i hiN]))
    unfold pyCall
    constructor
    · rintro ⟨o', h⟩
      split at h
      · exact ⟨_, by assumption⟩
      · cases h
      · cases h
    · rintro ⟨b, h⟩
      rw [h]
      exact ⟨_, rfl⟩
  · intro w h
    unfold pyCall at h
    split at h
    · cases h
    · cases h
    · rename_i w' hw
      cases h
      obtain ⟨i, hiN, e⟩ := r2 w hw
      rw [hi i hiN, hm i hiN] at e
      exact ⟨i, hiN, e⟩
  · intro o' h
    unfold pyCall at h
    split at h
    · rename_i b hb
      cases h
      refine ⟨b, rfl, fun i hiN => ?_⟩
      rw [← hi i hiN, ← hm i hiN]
      exact r3 b hb i hiN
    · cases h
    · cases h
  · intro msg o' h
    unfold pyCall at h
    split at h
    · cases h
    · rename_i s b hb
      cases h
      obtain ⟨k, hk, h1, h2, h3⟩ := r4 msg b hb
      refine ⟨b, rfl, k, hk, ?_, fun i hik => ?_, fun i hiN hki => ?_⟩
      · rw [← hi k hk, ← hm k hk]; exact h1
      · rw [← hi i (hik.trans hk), ← hm i (hik.trans hk)]; exact h2 i hik
      · rw [h3 i hiN hki, hm i hiN]
    · cases h

/-- the output arrays hold doubles -/
structure Doubles (o : PyObjs) : Prop where
  eInt : o.eInt.double = true
  stress : o.stress.double = true
  hist : o.hist.double = true
  tkelv : o.tkelv.double = true
  sdd : o.sdd.double = true

/-- the caller's rows after the call -/
theorem after_mem {c : Case} {o : PyObjs} {N : ℕ}
    (hchk : PyChecks c.type.numHist (PyObjs.own o) N) (hp : ProperObjs o) (hd : Doubles o)
    {b : BatchMem} (j : ℕ) (hj : j < N) :
    (rowMem (PyObjs.own (o.after b)) j : Mem c.type.nH c.type.nslip)
      = { pointMem (Strides.default c.type.numHist) b j with mtan := none } := by
  have hw : ∀ {x : PyObj}, x.double = true → ∀ b, (x.after b).arr = x.arr.write b := by
    intro x hx b
    unfold PyObj.after
    rw [if_pos hx]
  unfold rowMem pointMem PyObjs.own PyObjs.after
  simp only [hw hd.eInt, hw hd.stress, hw hd.hist, hw hd.tkelv, hw hd.sdd]
  congr 1
  · exact write_item ⟨hp.eInt.1, hp.eInt.2 hd.eInt⟩ (N := N) (c := 1) hchk.eInt _ j hj 0 one_pos
  · funext k; exact write_item ⟨hp.stress.1, hp.stress.2 hd.stress⟩ (N := N) (c := 7) hchk.stress _ j hj k k.2
  · funext k; exact write_item ⟨hp.hist.1, hp.hist.2 hd.hist⟩ (N := N) (c := c.type.numHist) hchk.hist _ j hj k k.2
  · exact write_item ⟨hp.tkelv.1, hp.tkelv.2 hd.tkelv⟩ (N := N) (c := 1) hchk.tkelv _ j hj 0 one_pos
  · funext k; exact write_item ⟨hp.sdd.1, hp.sdd.2 hd.sdd⟩ (N := N) (c := 2) hchk.sdd _ j hj k k.2

theorem mtan_none {X : Ext} {M : Material n nH} {inp : Inputs} {m m' : Mem nH n} (h : getResponseSngl X M inp m = .ok m')
    (hm : m.mtan = none) : m'.mtan = none := by
  obtain ⟨W⟩ := getResponseSngl_ok h
  have := W.ht
  rw [hm] at this
  simpa [Step.tangent] using this.symm

/-- **C86.** If the five output arrays hold doubles - the three input arrays may hold anything - the call succeeds
    exactly when the update of each row does; then the caller finds in row `i` of the own arrays the result of the update
    of that row, and the input arrays are as before. -/
theorem C86_results (S : Solver 1) (name : String) (p : PyArr) (c : Case) (m : MM c.type)
    (h : pyNew S name p = .ok ⟨c, m⟩) (o : PyObjs) (N : ℕ) (hN : c.type.numHist * N < 2 ^ 32)
    (hchk : PyChecks c.type.numHist (PyObjs.own o) N) (hp : ProperObjs o) (hd : Doubles o) (X : Ext) (dt : ℝ) :
    ∃ (M : Material c.type.nslip c.type.nH) (tol : ℝ),
      ((∃ o', pyCall X m dt o N = .ok o') ↔
        ∀ i < N, ∃ m', getResponseSngl X M (rowInp (PyObjs.own o) dt tol i) (rowMem (PyObjs.own o) i) = .ok m') ∧
      (∀ w, pyCall X m dt o N = .undef w →
        ∃ i < N, getResponseSngl X M (rowInp (PyObjs.own o) dt tol i) (rowMem (PyObjs.own o) i) = .undef w) ∧
      ∀ o', pyCall X m dt o N = .ok o' →
        (∀ i < N, getResponseSngl X M (rowInp (PyObjs.own o) dt tol i) (rowMem (PyObjs.own o) i)
          = .ok (rowMem (PyObjs.own o') i)) ∧
        o'.defRate = o.defRate ∧ o'.spin = o.spin ∧ o'.volRatio = o.volRatio := by
  obtain ⟨M, tol, hM⟩ := pyNew_ready h
  obtain ⟨r1, r2, r3, -⟩ := call_rows hM o N hN hchk hp X dt
  refine ⟨M, tol, r1, r2, fun o' ho => ?_⟩
  obtain ⟨b, rfl, hb⟩ := r3 o' ho
  refine ⟨fun i hi => ?_, rfl, rfl, rfl⟩
  have hmt := mtan_none (hb i hi) rfl
  rw [hb i hi, after_mem hchk hp hd i hi, ← hmt]

/-- **C86, exceptions.** If the call raises an exception, it comes from the update of some row `k`.  The caller then finds
    the results in the rows before it, what the failed update has left in row `k`, and the rows after it as they were. -/
theorem C86_failure (S : Solver 1) (name : String) (p : PyArr) (c : Case) (m : MM c.type)
    (h : pyNew S name p = .ok ⟨c, m⟩) (o : PyObjs) (N : ℕ) (hN : c.type.numHist * N < 2 ^ 32)
    (hchk : PyChecks c.type.numHist (PyObjs.own o) N) (hp : ProperObjs o) (hd : Doubles o) (X : Ext) (dt : ℝ) :
    ∃ (M : Material c.type.nslip c.type.nH) (tol : ℝ), ∀ msg o', pyCall X m dt o N = .fail msg o' → ∃ k < N,
      (∃ m', getResponseSngl X M (rowInp (PyObjs.own o) dt tol k) (rowMem (PyObjs.own o) k) = .fail msg m' ∧
        rowMem (PyObjs.own o') k = { m' with mtan := none }) ∧
      (∀ i < k, getResponseSngl X M (rowInp (PyObjs.own o) dt tol i) (rowMem (PyObjs.own o) i)
        = .ok (rowMem (PyObjs.own o') i)) ∧
      (∀ i < N, k < i → (rowMem (PyObjs.own o') i : Mem c.type.nH c.type.nslip) = rowMem (PyObjs.own o) i) ∧
      o'.defRate = o.defRate ∧ o'.spin = o.spin ∧ o'.volRatio = o.volRatio := by
  obtain ⟨M, tol, hM⟩ := pyNew_ready h
  obtain ⟨-, -, -, r4⟩ := call_rows hM o N hN hchk hp X dt
  refine ⟨M, tol, fun msg o' ho => ?_⟩
  obtain ⟨b, rfl, k, hk, h1, h2, h3⟩ := r4 msg o' ho
  refine ⟨k, hk, ⟨_, h1, after_mem hchk hp hd k hk⟩, fun i hi => ?_, fun i hi hki => ?_, rfl, rfl, rfl⟩
  · have hmt := mtan_none (h2 i hi) rfl
    rw [h2 i hi, after_mem hchk hp hd i (hi.trans hk), ← hmt]
  · rw [after_mem hchk hp hd i hi, h3 i hi hki]
    rfl

/-- the call writes nothing into an array of another kind -/
theorem C86_lost {T : MType} (X : Ext) (m : MM T) (dt : ℝ) (o o' : PyObjs) (N : ℤ) (h : pyCall X m dt o N = .ok o') :
    (o.eInt.double = false → o'.eInt = o.eInt) ∧ (o.stress.double = false → o'.stress = o.stress) ∧
    (o.hist.double = false → o'.hist = o.hist) ∧ (o.tkelv.double = false → o'.tkelv = o.tkelv) ∧
    (o.sdd.double = false → o'.sdd = o.sdd) := by
  unfold pyCall at h
  split at h
  · cases h
    refine ⟨fun e => ?_, fun e => ?_, fun e => ?_, fun e => ?_, fun e => ?_⟩ <;>
    · show PyObj.after _ _ = _
      unfold PyObj.after
      rw [if_neg (by simp [e])]
  · cases h
  · cases h

/-! ### The example script -/

/-- one row of `k` numbers, as ECMechProb.solve passes it -/
structure RowOf (k : ℕ) (a : PyArr) (v : Vec k) : Prop where
  shape : a.atleast2d.shape = [1, k]
  legal : Legal a.atleast2d
  val : ∀ j : Fin k, item a.atleast2d [0, j] = v j

theorem rowOf_list (l : List ℝ) : RowOf l.length (PyArr.ofList l) fun j => l.getD j 0 := by
  refine ⟨rfl, ⟨⟨rfl, ?_⟩, Or.inr ⟨1, l.length, 0, 1, rfl, rfl, Or.inl le_rfl, Or.inr rfl⟩⟩, ?_⟩
  · intro idx h
    obtain ⟨i, j, rfl, hi, hj⟩ := forall2_two h
    simp [pos, PyArr.ofList, PyArr.atleast2d]
    exact hj
  · intro j
    simp [item, pos, PyArr.ofList, PyArr.atleast2d]

theorem rowOf_number (x : ℝ) : RowOf 1 (PyArr.ofNumber x) fun _ => x := by
  refine ⟨rfl, ⟨⟨rfl, ?_⟩, Or.inr ⟨1, 1, 1, 1, rfl, rfl, Or.inl le_rfl, Or.inr rfl⟩⟩, ?_⟩
  · intro idx h
    obtain ⟨i, j, rfl, hi, hj⟩ := forall2_two h
    simp [pos, PyArr.ofNumber, PyArr.atleast2d]
    omega
  · intro j
    simp [item, PyArr.ofNumber, PyArr.atleast2d]

theorem rowOf_zeros (k : ℕ) : RowOf k (PyArr.zeros2 1 k) fun _ => 0 := by
  refine ⟨rfl, ⟨⟨rfl, ?_⟩, Or.inr ⟨1, k, k, 1, rfl, rfl, Or.inr rfl, Or.inr rfl⟩⟩, ?_⟩
  · intro idx h
    obtain ⟨i, j, rfl, hi, hj⟩ := forall2_two h
    have : i = 0 := by omega
    subst this
    simp [pos, PyArr.zeros2, PyArr.atleast2d]
    exact hj
  · intro j
    simp [item, PyArr.zeros2, PyArr.atleast2d]

theorem RowOf.proper {k : ℕ} {a : PyArr} {v : Vec k} (h : RowOf k a v) : Proper ⟨true, a.atleast2d⟩ :=
  ⟨h.legal.1, fun _ => h.legal.2⟩

theorem RowOf.check {k : ℕ} {a : PyArr} {v : Vec k} (h : RowOf k a v) : check2D a.atleast2d ((1 : ℕ) : ℤ) (k : ℤ) := by
  unfold check2D
  rw [h.shape]
  exact ⟨rfl, rfl⟩

theorem atleast2d_two {a : PyArr} {r c : ℕ} (h : a.shape = [r, c]) : a.atleast2d = a := by
  unfold PyArr.atleast2d
  split
  · rename_i h1 h2
    rw [h] at h1
    simp at h1
  · rfl

/-- the variable after the call -/
theorem RowOf.after {k : ℕ} {a : PyArr} {v : Vec k} (h : RowOf k a v) (b : Buf) :
    RowOf k ((⟨true, a.atleast2d⟩ : PyObj).after b).arr fun j => b.val j := by
  have e : ((⟨true, a.atleast2d⟩ : PyObj).after b).arr = a.atleast2d.write b := rfl
  have e2 : (a.atleast2d.write b).atleast2d = a.atleast2d.write b :=
    atleast2d_two (r := 1) (c := k) h.shape
  rw [e]
  refine ⟨by rw [e2]; exact h.shape, by rw [e2]; exact write_legal h.legal b, fun j => ?_⟩
  rw [e2, write_item h.legal h.check b 0 one_pos j j.2]
  simp

/-- the volumes of the script -/
structure VolOf (a : PyArr) (V : ℝ) : Prop where
  shape : a.shape = [4]
  strides : a.strides = [1]
  off : a.off = 0
  len : a.mem.len = 4
  val : a.mem.val 1 = V

/-- the growth of the volume in a step -/
noncomputable def growth : ℝ := Real.exp (1 / 10000)

/-- the inputs of a step of the script, when the volume was `V` -/
noncomputable def scriptInp (V : ℝ) : Inputs where
  dt := 1 / 10
  tol := 1 / 10 ^ 10
  d := ![2 / 3000, -1 / 3000, -1 / 3000, 0, 0, 0, 1 / 1000]
  w := 0
  vr := ![V, V * growth, (V * growth - V) / (1 / 10 * ((V + V * growth) / 2)), V * growth - V]

theorem scriptVol_ok {a : PyArr} {V : ℝ} (h : VolOf a V) (hV : 0 < V) : ∃ a', scriptVol a = .ok a' ∧ VolOf a' (V * growth) ∧
    RowOf 4 a' (scriptInp V).vr := by
  have hg : 0 < growth := Real.exp_pos _
  have hget : a.get [1] = V := by
    unfold PyArr.get
    rw [h.strides, h.off]
    simpa using h.val
  have hr : scriptRate.getD 6 0 * scriptDt = 1 / 10000 := by
    simp [scriptRate, scriptDt]
    norm_num
  have hne : scriptDt * 0.5 * (V + V * growth) ≠ 0 := by
    unfold scriptDt
    positivity
  have hG : Real.exp (1 / 10000) = growth := rfl
  have hvr : (![V, V * growth, (V * growth - V) / (scriptDt * 0.5 * (V + V * growth)), V * growth - V] : Vec 4)
      = (scriptInp V).vr := by
    have : scriptDt * 0.5 * (V + V * growth) = 1 / 10 * ((V + V * growth) / 2) := by unfold scriptDt; ring
    rw [this]
    rfl
  refine ⟨{ a with mem := a.mem.put a.off (scriptInp V).vr }, ?_, ?_, ?_⟩
  · unfold scriptVol
    simp only [hget, hr]
    rw [hG, if_neg hne, hvr]
  · refine ⟨h.shape, h.strides, h.off, h.len, ?_⟩
    show (a.mem.put a.off (scriptInp V).vr).val 1 = _
    unfold Buf.put
    simp only [h.off]
    rw [dif_pos (by omega)]
    rfl
  · have hs : ({ a with mem := a.mem.put a.off (scriptInp V).vr } : PyArr).atleast2d
        = { shape := [1, 4], strides := [0, 1], mem := a.mem.put a.off (scriptInp V).vr, off := a.off } := by
      unfold PyArr.atleast2d
      simp only [h.shape, h.strides]
    have hlen : (a.mem.put a.off (scriptInp V).vr).len = 4 := h.len
    refine ⟨by rw [hs], ?_, ?_⟩
    · rw [hs]
      refine ⟨⟨rfl, ?_⟩, Or.inr ⟨1, 4, 0, 1, rfl, rfl, Or.inl le_rfl, Or.inr rfl⟩⟩
      intro idx hi
      obtain ⟨i, j, rfl, hi, hj⟩ := forall2_two hi
      have hz : pos { shape := [1, 4], strides := [0, 1], mem := a.mem.put a.off (scriptInp V).vr, off := a.off } [i, j]
          = j := by
        simp [pos, h.off]
      rw [hz, hlen]
      exact ⟨by positivity, by exact_mod_cast hj⟩
    · intro j
      rw [hs]
      simp only [item, pos, h.off]
      have hz : (((0 : ℕ) : ℤ) + (List.zipWith (fun (s : ℤ) (i : ℕ) => s * (i : ℤ)) [0, 1] [0, (j : ℕ)]).sum).toNat
          = j := by simp
      rw [hz]
      show (if h : 0 ≤ (j : ℕ) ∧ (j : ℕ) < 0 + 4 then (scriptInp V).vr ⟨j - 0, by omega⟩ else a.mem.val j) = _
      rw [dif_pos (by have := j.2; omega)]
      congr 1

/-- a memory as the variables of the script hold it before a call: the moduli are zero and no tangent is asked for -/
structure VarsOf (nHist : ℕ) (v : ScriptVars) (V e t : ℝ) (s : Vec 7) (h : Vec nHist) : Prop where
  vol : VolOf v.vol V
  eInt : RowOf 1 v.eInt fun _ => e
  stress : RowOf 7 v.stress s
  hist : RowOf nHist v.hist h
  tkelv : RowOf 1 v.tkelv fun _ => t

theorem scriptRate_row : RowOf 7 (PyArr.ofList scriptRate) ![2 / 3000, -1 / 3000, -1 / 3000, 0, 0, 0, 1 / 1000] := by
  have h := rowOf_list scriptRate
  refine ⟨h.shape, h.legal, fun j => (h.val j).trans ?_⟩
  fin_cases j <;> simp [scriptRate] <;> norm_num

theorem zero_row : RowOf 3 (PyArr.ofList [0, 0, 0]) 0 := by
  have h := rowOf_list [0, 0, 0]
  refine ⟨h.shape, h.legal, fun j => (h.val j).trans ?_⟩
  fin_cases j <;> simp

/-- one pass of the loop is one update -/
theorem scriptStep_iff {c : Case} {m : MM c.type} {M : Material c.type.nslip c.type.nH} (hM : Uses m M (1 / 10 ^ 10))
    (X : Ext) {v : ScriptVars} {V e t : ℝ} (hV : 0 < V) {s : Vec 7} {h : Vec c.type.numHist}
    (hv : VarsOf c.type.numHist v V e t s h) :
    (∀ r, scriptStep X m v = .ok r → ∃ m', getResponseSngl X M (scriptInp V) ⟨e, s, h, t, 0, none⟩ = .ok m' ∧
      VarsOf c.type.numHist r.1 (V * growth) m'.eInt m'.tkelv m'.stress m'.hist ∧ r.2 = m'.stress 0) ∧
    (∀ m', getResponseSngl X M (scriptInp V) ⟨e, s, h, t, 0, none⟩ = .ok m' → ∃ r, scriptStep X m v = .ok r) := by
  obtain ⟨vol, hvol, hvol2, hrow⟩ := scriptVol_ok hv.vol hV
  set v' : ScriptVars := { v with vol := vol } with hv'
  have hz2 := rowOf_zeros 2
  have hz2' : (PyArr.zeros2 1 2).atleast2d = PyArr.zeros2 1 2 := atleast2d_two (r := 1) (c := 2) rfl
  have hchk : PyChecks c.type.numHist (PyObjs.own v'.objs) (1 : ℕ) :=
    ⟨scriptRate_row.check, zero_row.check, hrow.check, hv.eInt.check, hv.stress.check, hv.hist.check, hv.tkelv.check,
      by have := hz2.check; rwa [hz2'] at this⟩
  have hp : ProperObjs v'.objs :=
    ⟨scriptRate_row.proper, zero_row.proper, hrow.proper, hv.eInt.proper, hv.stress.proper, hv.hist.proper,
      hv.tkelv.proper, by have := hz2.proper; rwa [hz2'] at this⟩
  have hd : Doubles v'.objs := ⟨rfl, rfl, rfl, rfl, rfl⟩
  have hN : c.type.numHist * 1 < 2 ^ 32 := by cases c <;> norm_num [Case.type, MType.numHist, numHist]
  obtain ⟨r1, -, r3, -⟩ := call_rows hM v'.objs 1 hN hchk hp X scriptDt
  have hi : rowInp (PyObjs.own v'.objs) scriptDt (1 / 10 ^ 10) 0 = scriptInp V := by
    unfold rowInp scriptInp
    congr 1
    · show (0.1 : ℝ) = 1 / 10; norm_num
    · funext j; exact scriptRate_row.val j
    · funext j; exact zero_row.val j
    · funext j; exact hrow.val j
  have hm : (rowMem (PyObjs.own v'.objs) 0 : Mem c.type.nH c.type.nslip) = ⟨e, s, h, t, 0, none⟩ := by
    unfold rowMem
    congr 1
    · exact hv.eInt.val 0
    · funext j; exact hv.stress.val j
    · funext j; exact hv.hist.val j
    · exact hv.tkelv.val 0
  have hstep : scriptStep X m v = match pyCall X m scriptDt v'.objs ((1 : ℕ) : ℤ) with
      | .undef w => .undef w
      | .fail s _ => .fail s
      | .ok o => .ok ({ vol := vol, eInt := o.eInt.arr, stress := o.stress.arr, hist := o.hist.arr
                        tkelv := o.tkelv.arr }, o.stress.arr.get [0, 0]) := by
    unfold scriptStep
    rw [hvol]
    rfl
  constructor
  · intro r hr
    rw [hstep] at hr
    split at hr
    · cases hr
    · cases hr
    · rename_i o ho
      obtain ⟨b, rfl, hb⟩ := r3 o ho
      have hb := hb 0 one_pos
      rw [hi, hm] at hb
      cases hr
      have es : RowOf 7 (v'.objs.after b).stress.arr (pointMem (nH := c.type.nH) (n := c.type.nslip)
          (Strides.default c.type.numHist) b 0).stress := by
        refine ⟨(hv.stress.after b.stress).shape, (hv.stress.after b.stress).legal, fun j => ((hv.stress.after b.stress).val j).trans ?_⟩
        simp [pointMem, slice]
      refine ⟨_, hb, ⟨hvol2, ?_, es, ?_, ?_⟩, ?_⟩
      · refine ⟨(hv.eInt.after b.eInt).shape, (hv.eInt.after b.eInt).legal, fun j => ((hv.eInt.after b.eInt).val j).trans ?_⟩
        simp [pointMem]
      · refine ⟨(hv.hist.after b.hist).shape, (hv.hist.after b.hist).legal, fun j => ((hv.hist.after b.hist).val j).trans ?_⟩
        simp [pointMem, slice]
      · refine ⟨(hv.tkelv.after b.tkelv).shape, (hv.tkelv.after b.tkelv).legal, fun j => ((hv.tkelv.after b.tkelv).val j).trans ?_⟩
        simp [pointMem]
      · have ea : (v'.objs.after b).stress.arr.atleast2d = (v'.objs.after b).stress.arr :=
          atleast2d_two (r := 1) (c := 7) hv.stress.shape
        rw [get_eq, ← es.val 0, ea]
        rfl
  · intro m' h'
    obtain ⟨o, ho⟩ := r1.2 (fun i hi' => by
      have : i = 0 := by omega
      subst this
      rw [hi, hm]
      exact ⟨m', h'⟩)
    rw [hstep, ho]
    exact ⟨_, rfl⟩

/-- the updates of `K` passes of the loop, from the volume `V` on -/
structure Passes (X : Ext) (M : Material n nH) (K : ℕ) (V : ℝ) (t t' : ℕ → Mem nH n) : Prop where
  ok : ∀ j < K, getResponseSngl X M (scriptInp (V * growth ^ j)) (t j) = .ok (t' j)
  link : ∀ j, t (j + 1) = { t' j with sdd := 0 }

theorem scriptLoop_iff {c : Case} {m : MM c.type} {M : Material c.type.nslip c.type.nH} (hM : Uses m M (1 / 10 ^ 10))
    (X : Ext) (K : ℕ) : ∀ {v : ScriptVars} {V e t : ℝ}, 0 < V → ∀ {s : Vec 7} {h : Vec c.type.numHist},
    VarsOf c.type.numHist v V e t s h → ∀ l, scriptLoop X m K v = .ok l ↔
      ∃ u u' : ℕ → Mem c.type.nH c.type.nslip, u 0 = ⟨e, s, h, t, 0, none⟩ ∧ Passes X M K V u u' ∧
        l = (List.range K).map fun j => (u' j).stress 0 := by
  induction K with
  | zero =>
    intro v V e t hV s h hv l
    simp only [scriptLoop]
    constructor
    · intro hl
      cases hl
      refine ⟨fun j => ⟨e, s, h, t, 0, none⟩, fun j => ⟨e, s, h, t, 0, none⟩, rfl, ⟨fun j hj => by omega, fun j => rfl⟩, rfl⟩
    · rintro ⟨u, u', -, -, rfl⟩
      rfl
  | succ K ih =>
    intro v V e t hV s h hv l
    have hg : 0 < growth := Real.exp_pos _
    have hV' : 0 < V * growth := mul_pos hV hg
    obtain ⟨s1, s2⟩ := scriptStep_iff hM X hV hv
    have hshift : ∀ j, V * growth * growth ^ j = V * growth ^ (j + 1) := fun j => by ring
    constructor
    · intro hl
      simp only [scriptLoop] at hl
      obtain ⟨r, hr, hl⟩ := Out.bind_ok hl
      obtain ⟨l', hl', hl⟩ := Out.bind_ok hl
      cases hl
      obtain ⟨m', hm', hv', hout⟩ := s1 r hr
      obtain ⟨u, u', hu0, hP, rfl⟩ := (ih hV' hv' l').1 hl'
      have hmt := mtan_none hm' rfl
      refine ⟨fun j => Nat.casesOn j ⟨e, s, h, t, 0, none⟩ u, fun j => Nat.casesOn j m' u', rfl, ⟨?_, ?_⟩, ?_⟩
      · intro j hj
        cases j with
        | zero => simpa using hm'
        | succ j =>
          have := hP.ok j (by omega)
          rw [hshift] at this
          exact this
      · intro j
        cases j with
        | zero =>
          show u 0 = _
          rw [hu0, ← hmt]
          rfl
        | succ j => exact hP.link j
      · rw [List.range_succ_eq_map, List.map_cons, List.map_map, hout]
        rfl
    · rintro ⟨u, u', hu0, hP, rfl⟩
      have hm' : getResponseSngl X M (scriptInp V) ⟨e, s, h, t, 0, none⟩ = .ok (u' 0) := by
        have := hP.ok 0 (by omega)
        rw [hu0] at this
        simpa using this
      obtain ⟨r, hr⟩ := s2 _ hm'
      obtain ⟨m', hm2, hv', hout⟩ := s1 r hr
      have e1 : m' = u' 0 := by
        rw [hm'] at hm2
        cases hm2
        rfl
      subst e1
      have hmt := mtan_none hm' rfl
      have hl' := (ih hV' hv' ((List.range K).map fun j => (u' (j + 1)).stress 0)).2
        ⟨fun j => u (j + 1), fun j => u' (j + 1), by
          show u 1 = _
          rw [hP.link 0, ← hmt], ⟨fun j hj => by
            have := hP.ok (j + 1) (by omega)
            rw [hshift]
            exact this, fun j => hP.link (j + 1)⟩, rfl⟩
      simp only [scriptLoop]
      rw [hr]
      simp only [Out.bind]
      rw [hl', List.range_succ_eq_map, List.map_cons, List.map_map, hout]
      rfl

/-- the constructor with proper parameters gives a model that uses the material made from them -/
theorem pyNew_built {S : Solver 1} {name : String} {p : PyArr} {c : Case} {pars : List ℝ}
    {M : Material c.type.nslip c.type.nH} {tol : ℝ} (hp : pyParams p = .ok pars) (hc : pyCase name = .ok c)
    (h : BuiltFrom c.type S pars M tol) : ∃ m : MM c.type, pyNew S name p = .ok ⟨c, m⟩ ∧ Uses m M tol ∧
      ∃ d, m.getHistInfo = .ok d ∧ d.length = c.type.numHist ∧
        ((MM.new c.type (Strides.default c.type.numHist)).initFromParams S [] pars []).2 = .ok () ∧
        ((MM.new c.type (Strides.default c.type.numHist)).initFromParams S [] pars []).1.getHistInfo = .ok d := by
  obtain ⟨rho0, cvav, gamma, ec0, gl, el, kl, info, hpp, hg, he, hk, hG, hE, hK, hB, hI, hO⟩ := h
  have hp' : pars = parVec rho0 cvav tol gamma ec0 gl el kl := hpp
  set st := Strides.default c.type.numHist with hst
  have hi := init_ok S (MM.new c.type st) rho0 cvav tol gamma ec0 gl el kl [] hg he hk (by simp) hG hE hK hB hI
  have hl : (histDesc info c.type.nslip).length = c.type.numHist := by
    rw [histDesc_length, MType.numHist, Ecm.numHist, hI]
  have key : pyNew S name p = Out.bind ((MM.new c.type st).initFromParams S [] pars []).1.setComplete fun m =>
      .ok ⟨c, m⟩ := by
    unfold pyNew
    rw [hp, hc]
    simp only [Out.bind]
    rw [hp', hi]
  rw [hp', hi] at key
  simp only [MM.setComplete, Out.bind] at key
  refine ⟨_, key, ?_, histDesc info c.type.nslip, ?_, hl, by rw [hp', hi], ?_⟩
  · intro X a N b
    obtain ⟨mg, mk, me, mo⟩ := M
    simp only at hO
    subst hO
    rfl
  · unfold MM.getHistInfo
    rw [if_neg (by simpa using hl)]
  · rw [hp', hi]
    unfold MM.getHistInfo
    rw [if_neg (by simpa using hl)]

/-- the copper of the script -/
noncomputable def scriptMat (S : Solver 1) : Material 12 1 where
  geom := slipPQ fccM fccS
  kin := copperVoce.kin S 12
  el := .cubic 168.4 121.4 75.2
  eos := { isothermal := false, rho0 := 8.92e-6, bulkMod := (Elast.cubic 168.4 121.4 75.2).kBulkMod, cvav := 0.003435984
           gamma := 0, ec0 := -1.0307952 }

theorem scriptPars_voce : scriptPars = vocePars 8.92e-6 0.003435984 (1 / 10 ^ 10) 168.4 121.4 75.2 copperVoce 0 (-1.0307952) := by
  simp [scriptPars, vocePars, Voce.getParams, copperVoce]
  norm_num

theorem scriptMat_built (S : Solver 1) : BuiltFrom Case.fccA.type S scriptPars (scriptMat S) (1 / 10 ^ 10) := by
  rw [scriptPars_voce]
  refine ⟨8.92e-6, 0.003435984, 0, -1.0307952, [], [168.4, 121.4, 75.2], copperVoce.getParams, copperVoce.histInfo, rfl, rfl,
    rfl, rfl, C16_fcc.2, rfl, ?_, ?_, rfl, rfl⟩
  · show kinVoce false 12 S copperVoce.getParams = _
    unfold kinVoce
    have : Voce.setParams false copperVoce.getParams = .ok copperVoce := by
      have := Voce.setParams_lin copperVoce.mu copperVoce.xm copperVoce.gamW copperVoce.h0 copperVoce.tausi copperVoce.taus0
        copperVoce.xms copperVoce.gamss0 copperVoce.hdnInit
      unfold Voce.getParams
      rw [this]
      rfl
    rw [this]
    rfl
  · show 0 < (Elast.cubic 168.4 121.4 75.2).kBulkMod
    unfold Elast.kBulkMod
    norm_num

/-- the state the script starts from: the unloaded crystal in the orientation of the axes -/
noncomputable def scriptStart : Mem 1 12 where
  eInt := 0
  stress := 0
  hist := ({ shrateEff := 0, shrEff := 0, flowStr := 0, nFEval := 0, e := 0, q := ![1, 0, 0, 0], h := fun _ => 17e-3
             gdot := 0 } : Hist 1 12).toArray
  tkelv := 300
  sdd := 0
  mtan := none

theorem scriptPars_given : pyParams (PyArr.ofList scriptPars) = .ok scriptPars := by
  have hv : Valid (PyArr.ofList scriptPars) := by
    refine ⟨rfl, ?_⟩
    intro idx h
    obtain ⟨i, rfl, hi⟩ := forall2_one h
    simp [pos, PyArr.ofList]
    exact hi
  rw [pyParams_contig (k := 17) rfl (by norm_num) rfl hv]
  rfl

/-- **C86, the script.** The script `pyecmech/example.py` prints `out` exactly when the 41 updates of a copper crystal
    along the axes under uniaxial extension at a rate of 0.001 succeed one after the other, and `out` are the first
    components of the deviatoric stresses. -/
theorem C86_script (S : Solver 1) (X : Ext) (out : List ℝ) : pyScript S X = .ok out ↔
    ∃ t t' : ℕ → Mem 1 12, t 0 = scriptStart ∧
      (∀ j : ℕ, j < 41 → getResponseSngl X (scriptMat S) (scriptInp (Real.exp (j / 10000))) (t j) = .ok (t' j)) ∧
      (∀ j, t (j + 1) = { t' j with sdd := 0 }) ∧ out = (List.range 41).map fun j => (t' j).stress 0 := by
  obtain ⟨m, hm, hU, d, hd, hdl, hi1, hi2⟩ := pyNew_built scriptPars_given
    ((pyCase_iff "voce_fcc_norm" .fccA).2 (Or.inl ⟨rfl, rfl⟩)) (scriptMat_built S)
  have h13 := C41_hardness .fccA S _ [] scriptPars [] hi1 d hi2
  obtain ⟨f1, f2, f3, f4, f5, f6, f7, f8, f9, f10, -⟩ := C41_initial S _ [] scriptPars [] hi1 d hi2
  have hH : ∀ i, (Hist.ofArray (initialArray 1 12 d)).h i = 17e-3 := by
    intro i
    have hi0 : i = 0 := Subsingleton.elim _ _
    subst hi0
    show (entry d 13).init = _
    rw [h13]
    show scriptPars.getD (17 - 3) 0 = _
    simp [scriptPars]
    norm_num
  have hhist : initialArray 1 12 d = scriptStart.hist := by
    rw [← Hist.toArray_ofArray (initialArray 1 12 d)]
    unfold scriptStart
    congr 1
    have hq : (Hist.ofArray (initialArray 1 12 d)).q = ![1, 0, 0, 0] := by
      funext i
      fin_cases i
      · exact f6
      · exact f7
      · exact f8
      · exact f9
    have hext : ∀ a b : Hist 1 12, a.shrateEff = b.shrateEff → a.shrEff = b.shrEff → a.flowStr = b.flowStr →
        a.nFEval = b.nFEval → a.e = b.e → a.q = b.q → a.h = b.h → a.gdot = b.gdot → a = b := by
      rintro ⟨⟩ ⟨⟩ h1 h2 h3 h4 h5 h6 h7 h8
      simp only at h1 h2 h3 h4 h5 h6 h7 h8
      subst h1 h2 h3 h4 h5 h6 h7 h8
      rfl
    exact hext _ _ f1 f2 f3 f4 (funext f5) hq (funext hH) (funext f10)
  have hrow : RowOf Case.fccA.type.numHist (PyArr.ofList (d.map HistEntry.init)) scriptStart.hist := by
    have h := rowOf_list (d.map HistEntry.init)
    have hl : (d.map HistEntry.init).length = 26 := by rw [List.length_map, hdl]; rfl
    rw [← hhist]
    rw [hl] at h
    refine ⟨h.shape, h.legal, fun j => (h.val j).trans ?_⟩
    show (d.map HistEntry.init).getD j 0 = (entry d j).init
    have hj : (j : ℕ) < d.length := by rw [hdl]; exact j.2
    unfold entry
    rw [List.getD_eq_getElem?_getD, List.getD_eq_getElem?_getD, List.getElem?_map, List.getElem?_eq_getElem hj]
    rfl
  have hvars : VarsOf Case.fccA.type.numHist
      { vol := PyArr.ofList [1.0, 1.0, 0.0, 0.0], eInt := PyArr.ofList [0]
        stress := PyArr.ofList [0, 0, 0, 0, 0, 0, 0], hist := PyArr.ofList (d.map HistEntry.init)
        tkelv := PyArr.ofNumber 300 } 1 0 300 0 scriptStart.hist := by
    refine ⟨⟨rfl, rfl, rfl, rfl, ?_⟩, ?_, ?_, hrow, rowOf_number 300⟩
    · show ([1.0, 1.0, 0.0, 0.0] : List ℝ).getD 1 0 = 1
      norm_num
    · have h := rowOf_list [0]
      refine ⟨h.shape, h.legal, fun j => (h.val j).trans ?_⟩
      fin_cases j
      rfl
    · have h := rowOf_list [0, 0, 0, 0, 0, 0, 0]
      refine ⟨h.shape, h.legal, fun j => (h.val j).trans ?_⟩
      fin_cases j <;> rfl
  have hs : pyScript S X = scriptLoop X m 41
      { vol := PyArr.ofList [1.0, 1.0, 0.0, 0.0], eInt := PyArr.ofList [0]
        stress := PyArr.ofList [0, 0, 0, 0, 0, 0, 0], hist := PyArr.ofList (d.map HistEntry.init)
        tkelv := PyArr.ofNumber 300 } := by
    unfold pyScript
    rw [hm]
    simp only [Out.bind]
    rw [hd]
  have hvol : ∀ j : ℕ, (1 : ℝ) * growth ^ j = Real.exp (j / 10000) := by
    intro j
    unfold growth
    rw [one_mul, ← Real.exp_nat_mul]
    congr 1
    ring
  rw [hs, scriptLoop_iff hU X 41 one_pos hvars]
  constructor
  · rintro ⟨u, u', h0, hP, rfl⟩
    refine ⟨u, u', h0, fun j hj => ?_, hP.link, rfl⟩
    have := hP.ok j hj
    rwa [hvol] at this
  · rintro ⟨u, u', h0, hok, hl, rfl⟩
    refine ⟨u, u', h0, ⟨fun j hj => ?_, hl⟩, rfl⟩
    rw [hvol]
    exact hok j hj

theorem scriptMat_cubic (S : Solver 1) : PowerCubic (scriptMat S) copperVoce S 168.4 121.4 75.2 :=
  ⟨⟨fccM, fccS, rfl, C16_fcc.1⟩, rfl, rfl, by norm_num, by norm_num [scriptMat]⟩

theorem script_frob (V : ℝ) : frob (devOfSvecP (scriptInp V).d) ≤ 1 / 1000 ∧ IsDev (devOfSvecP (scriptInp V).d) := by
  constructor
  · unfold frob
    rw [Real.sqrt_le_left (by norm_num)]
    simp [ddot, Fin.sum_univ_three, devOfSvecP, scriptInp]
    norm_num
  · rw [isDev_iff]
    simp [devOfSvecP, scriptInp]
    norm_num

theorem script_vol {j : ℕ} (hj : j < 41) : 1 ≤ (scriptInp (Real.exp (j / 10000))).vr 1 ∧
    (scriptInp (Real.exp (j / 10000))).vr 1 ≤ 2 := by
  have e : (scriptInp (Real.exp (j / 10000))).vr 1 = Real.exp ((j + 1) / 10000) := by
    show Real.exp (j / 10000) * growth = _
    unfold growth
    rw [← Real.exp_add]
    congr 1
    ring
  have hj' : (j : ℝ) + 1 ≤ 41 := by exact_mod_cast hj
  rw [e]
  refine ⟨Real.one_le_exp (by positivity), ?_⟩
  have h1 : Real.exp ((j + 1) / 10000) ≤ Real.exp (1 / 2) := Real.exp_le_exp.2 (by linarith)
  have h2 : Real.exp (1 / 2) ^ 2 ≤ 2 ^ 2 := by
    rw [← Real.exp_nat_mul]
    have := Real.exp_one_lt_d9
    norm_num
    linarith
  exact h1.trans (le_of_sq_le_sq h2 (by norm_num))

/-- **C86, the script reaches its end.** With a solver that finds the solutions there are, all 41 updates succeed and the
    script prints 41 numbers. -/
theorem C86_script_runs (S : Solver 1) (hS : Finds S) (X : Ext) (hX : Finds X.solver) (hL : ∀ A B, (X.lup A B).isSome) :
    ∃ out, pyScript S X = .ok out ∧ out.length = 41 := by
  have hκ : stiff 168.4 121.4 75.2 = 150.4 := by unfold stiff; norm_num
  have hsq : Real.sqrt 150.4 ≤ 13 := by rw [Real.sqrt_le_left (by norm_num)]; norm_num
  have hsq0 := Real.sqrt_nonneg 150.4
  have hw : copperVoce.gamW = 1 := rfl
  have hrp : ∀ j : ℕ, j < 41 → 1 ≤ ((scriptInp (Real.exp (j / 10000))).vr 1) ^ (1 / 3 : ℝ) ∧
      ((scriptInp (Real.exp (j / 10000))).vr 1) ^ (1 / 3 : ℝ) ≤ 2 := by
    intro j hj
    obtain ⟨h1, h2⟩ := script_vol hj
    refine ⟨Real.one_le_rpow h1 (by norm_num), ?_⟩
    calc _ ≤ (2 : ℝ) ^ (1 / 3 : ℝ) := Real.rpow_le_rpow (by linarith) h2 (by norm_num)
      _ ≤ (2 : ℝ) ^ (1 : ℝ) := Real.rpow_le_rpow_of_exponent_le (by norm_num) (by norm_num)
      _ = 2 := Real.rpow_one 2
  have hsup : ∀ j : ℕ, j < 41 → 0 ≤ stepSupply (stiff 168.4 121.4 75.2) copperVoce.gamW (scriptInp (Real.exp (j / 10000))) ∧
      stepSupply (stiff 168.4 121.4 75.2) copperVoce.gamW (scriptInp (Real.exp (j / 10000))) ≤ 1 := by
    intro j hj
    obtain ⟨h1, h2⟩ := hrp j hj
    have hf := (script_frob (Real.exp (j / 10000))).1
    have hf0 : 0 ≤ frob (devOfSvecP (scriptInp (Real.exp (j / 10000))).d) := Real.sqrt_nonneg _
    have hdt : (scriptInp (Real.exp (j / 10000))).dt = 1 / 10 := rfl
    have ht : (scriptInp (Real.exp (j / 10000))).tol = 1 / 10 ^ 10 := rfl
    unfold stepSupply
    rw [hκ, hw, hdt, ht]
    generalize ((scriptInp (Real.exp (j / 10000))).vr 1) ^ (1 / 3 : ℝ) = v at h1 h2
    generalize frob (devOfSvecP (scriptInp (Real.exp (j / 10000))).d) = f at hf hf0
    generalize Real.sqrt 150.4 = σ at hsq hsq0
    have h3 : f + 1 / 10 ^ 10 * (1 + f + 1 / 10 ^ 6 / (1 / 10)) ≤ 1 / 100 := by norm_num; linarith
    refine ⟨by positivity, ?_⟩
    calc 1 / 10 * v * (σ * (f + 1 / 10 ^ 10 * (1 + f + 1 / 10 ^ 6 / (1 / 10)))) ≤ 1 / 10 * 2 * (13 * (1 / 100)) := by
          gcongr
      _ ≤ 1 := by norm_num
  have hxm : (1 : ℝ) ≤ (10 ^ 60 : ℝ) ^ copperVoce.xm := Real.one_le_rpow (by norm_num) (by norm_num [copperVoce])
  obtain ⟨t, h1, h2, h3, h4, -⟩ := C82_history hS (scriptMat_cubic S) copper_steady (hm := 17e-3) (by norm_num)
    (by norm_num [copperVoce]) (K := 41) (by norm_num) (by norm_num) (fun _ => X) (fun _ _ => hX) (fun _ _ => hL)
    (fun j => scriptInp (Real.exp (j / 10000))) 0 (fun j hj => by
      obtain ⟨v1, v2⟩ := script_vol hj
      obtain ⟨r1, r2⟩ := hrp j hj
      obtain ⟨hf, hdev⟩ := script_frob (Real.exp (j / 10000))
      have hf0 : 0 ≤ frob (devOfSvecP (scriptInp (Real.exp (j / 10000))).d) := Real.sqrt_nonneg _
      have hdt : (scriptInp (Real.exp (j / 10000))).dt = 1 / 10 := rfl
      refine ⟨by rw [hdt]; norm_num, by linarith, hdev, ?_, ?_⟩
      · have hs : ∑ i ∈ Finset.range j, stepSupply (stiff 168.4 121.4 75.2) copperVoce.gamW
            (scriptInp (Real.exp (i / 10000))) ≤ 41 := by
          calc _ ≤ ∑ i ∈ Finset.range j, (1 : ℝ) := Finset.sum_le_sum fun i hi =>
                (hsup i (by have := Finset.mem_range.1 hi; omega)).2
            _ = j := by simp
            _ ≤ 41 := by exact_mod_cast hj.le
        have hs0 : 0 ≤ ∑ i ∈ Finset.range j, stepSupply (stiff 168.4 121.4 75.2) copperVoce.gamW
            (scriptInp (Real.exp (i / 10000))) := Finset.sum_nonneg fun i hi =>
                (hsup i (by have := Finset.mem_range.1 hi; omega)).1
        unfold imposed
        rw [hκ, hw] at hs hs0
        rw [hκ, hdt, hw]
        generalize ∑ i ∈ Finset.range j, stepSupply 150.4 1 (scriptInp (Real.exp (i / 10000))) = E at hs hs0
        generalize ((scriptInp (Real.exp (j / 10000))).vr 1) ^ (1 / 3 : ℝ) = v at r1 r2
        generalize frob (devOfSvecP (scriptInp (Real.exp (j / 10000))).d) = f at hf hf0
        generalize Real.sqrt 150.4 = σ at hsq hsq0
        generalize (10 ^ 60 : ℝ) ^ copperVoce.xm = z at hxm
        calc (0 + E + 1 / 10 * v * (σ * f)) ^ 2 ≤ (0 + 41 + 1 / 10 * 2 * (13 * (1 / 1000))) ^ 2 := by gcongr
          _ ≤ 4 * (1 / 10 * 1 ^ 2) * (1 * (17e-3 / 2) * (10 ^ 60 * 1)) := by norm_num
          _ ≤ 4 * (1 / 10 * v ^ 2) * (z * (17e-3 / 2) * (10 ^ 60 * 1)) := by gcongr
      · have hl : len (scriptInp (Real.exp (j / 10000))).w = 0 := by
          show Real.sqrt (dot 0 0) = 0
          simp [dot]
        have ht : (scriptInp (Real.exp (j / 10000))).tol = 1 / 10 ^ 10 := rfl
        rw [hl, ht]
        norm_num)
    (fun _ m => { m with sdd := 0 }) (fun _ _ => rfl) scriptStart (by
      have hs : histOf scriptStart = { shrateEff := 0, shrEff := 0, flowStr := 0, nFEval := 0, e := 0, q := ![1, 0, 0, 0]
                                       h := fun _ => 17e-3, gdot := 0 } := Hist.ofArray_toArray _
      rw [hs]
      refine ⟨fun h => by simpa using congrFun h 0, le_rfl, by norm_num, ?_, ?_⟩
      · rw [energyNorm_eq]
        unfold wNorm
        simp
      · simp only [Pi.zero_apply, abs_zero, Finset.sum_const_zero]
        rw [hw]
        positivity)
  refine ⟨_, (C86_script S X _).2 ⟨t.m, t.m', h3, fun j hj => ?_, h4, rfl⟩, by simp⟩
  have := t.ok j hj
  rwa [h1, h2] at this

/-- the hypotheses can be met -/
example : ∃ out, pyScript (idealSolver 1) ⟨idealSolver 8, fun _ B => some B, 1⟩ = .ok out ∧ out.length = 41 :=
  C86_script_runs _ (idealSolver_finds 1) _ (idealSolver_finds 8) fun _ _ => rfl

/-! ### Lost results -/

theorem row_vec {k : ℕ} (v : Vec k) : RowOf k (PyArr.ofList (List.ofFn v)) v := by
  have h := rowOf_list (List.ofFn v)
  have hl : (List.ofFn v).length = k := by simp
  rw [hl] at h
  refine ⟨h.shape, h.legal, fun j => (h.val j).trans ?_⟩
  simp

/-- a new array with one row -/
noncomputable def rowArr {k : ℕ} (v : Vec k) : PyArr := (PyArr.ofList (List.ofFn v)).atleast2d

/-- the objects of the first pass of the loop, but with integers for the moduli (as in pyecmech/example-dev.py:135) -/
noncomputable def intObjs : PyObjs where
  defRate := ⟨true, rowArr (scriptInp 1).d⟩
  spin := ⟨true, rowArr (scriptInp 1).w⟩
  volRatio := ⟨true, rowArr (scriptInp 1).vr⟩
  eInt := ⟨true, rowArr (k := 1) 0⟩
  stress := ⟨true, rowArr scriptStart.stress⟩
  hist := ⟨true, rowArr scriptStart.hist⟩
  tkelv := ⟨true, rowArr (k := 1) fun _ => 300⟩
  sdd := ⟨false, PyArr.zeros2 1 2⟩

theorem script_uses (S : Solver 1) : ∃ m, pyNew S "voce_fcc_norm" (PyArr.ofList scriptPars) = .ok ⟨.fccA, m⟩ ∧
    Uses m (scriptMat S) (1 / 10 ^ 10) := by
  obtain ⟨m, hm, hU, -⟩ := pyNew_built scriptPars_given
    ((pyCase_iff "voce_fcc_norm" .fccA).2 (Or.inl ⟨rfl, rfl⟩)) (scriptMat_built S)
  exact ⟨m, hm, hU⟩

/-- **C86, refuted for arrays of integers.** There is a call that is accepted and succeeds, with integers for the moduli:
    the update finds a positive shear modulus, the caller's array still says zero. -/
theorem C86_refuted_integers (S : Solver 1) (hS : Finds S) (X : Ext) (hX : Finds X.solver)
    (hL : ∀ A B, (X.lup A B).isSome) :
    ∃ (m : MM Case.fccA.type) (o' : PyObjs) (m' : Mem 1 12),
      pyNew S "voce_fcc_norm" (PyArr.ofList scriptPars) = .ok ⟨.fccA, m⟩ ∧
      PyChecks 26 (PyObjs.own intObjs) 1 ∧ ProperObjs intObjs ∧ pyCall X m (1 / 10) intObjs 1 = .ok o' ∧
      getResponseSngl X (scriptMat S) (rowInp (PyObjs.own intObjs) (1 / 10) (1 / 10 ^ 10) 0)
        (rowMem (PyObjs.own intObjs) 0) = .ok m' ∧
      0 < m'.sdd 1 ∧ item o'.sdd.arr [0, 1] = 0 := by
  obtain ⟨m, hm, hU⟩ := script_uses S
  obtain ⟨out, hout, -⟩ := C86_script_runs S hS X hX hL
  obtain ⟨t, t', h0, hok, -, -⟩ := (C86_script S X out).1 hout
  have hstep := hok 0 (by norm_num)
  rw [h0] at hstep
  simp only [Nat.cast_zero, zero_div, Real.exp_zero] at hstep
  have hz2 := rowOf_zeros 2
  have hz2' : (PyArr.zeros2 1 2).atleast2d = PyArr.zeros2 1 2 := atleast2d_two (r := 1) (c := 2) rfl
  have hchk : PyChecks 26 (PyObjs.own intObjs) (1 : ℕ) :=
    ⟨(row_vec _).check, (row_vec _).check, (row_vec _).check, (row_vec _).check, (row_vec _).check, (row_vec _).check,
      (row_vec _).check, by have := hz2.check; rwa [hz2'] at this⟩
  have hp : ProperObjs intObjs :=
    ⟨(row_vec _).proper, (row_vec _).proper, (row_vec _).proper, (row_vec _).proper, (row_vec _).proper,
      (row_vec _).proper, (row_vec _).proper, by
        have := hz2.proper; rw [hz2'] at this; exact ⟨this.1, fun h => absurd h (by simp [intObjs])⟩⟩
  obtain ⟨r1, -, r3, -⟩ := call_rows hU intObjs 1 (by norm_num [Case.type, MType.numHist, numHist]) hchk hp X (1 / 10)
  have hi : rowInp (PyObjs.own intObjs) (1 / 10) (1 / 10 ^ 10) 0 = scriptInp 1 := by
    unfold rowInp
    have e : scriptInp 1 = { dt := 1 / 10, tol := 1 / 10 ^ 10, d := (scriptInp 1).d, w := (scriptInp 1).w
                             vr := (scriptInp 1).vr } := rfl
    rw [e]
    congr 1
    · funext j; exact (row_vec _).val j
    · funext j; exact (row_vec _).val j
    · funext j; exact (row_vec _).val j
  have hme : (rowMem (PyObjs.own intObjs) 0 : Mem 1 12) = scriptStart := by
    unfold rowMem
    have e : scriptStart = { eInt := 0, stress := scriptStart.stress, hist := scriptStart.hist, tkelv := 300, sdd := 0
                             mtan := none } := rfl
    rw [e]
    congr 1
    · funext j; exact (row_vec _).val j
    · funext j; exact (row_vec _).val j
  obtain ⟨o', ho⟩ := r1.2 (fun i hi' => by
    have : i = 0 := by omega
    subst this
    refine ⟨t' 0, ?_⟩
    exact (by rw [hi, hme]; exact hstep :
      getResponseSngl X (scriptMat S) (rowInp (PyObjs.own intObjs) (1 / 10) (1 / 10 ^ 10) 0)
        (rowMem (PyObjs.own intObjs) 0) = .ok (t' 0)))
  refine ⟨m, o', t' 0, hm, hchk, hp, ho, by rw [hi, hme]; exact hstep, ?_, ?_⟩
  · obtain ⟨W⟩ := getResponseSngl_ok hstep
    have hg := W.hg
    unfold Elast.getGmod at hg
    split_ifs at hg with h
    rw [W.hsdd, ← Out.ok.inj hg]
    push Not at h
    exact h
  · have := (C86_lost X m (1 / 10) intObjs o' _ ho).2.2.2.2 rfl
    rw [this]
    rfl

/-- the hypotheses can be met -/
example : ∃ (S : Solver 1) (X : Ext), Finds S ∧ Finds X.solver ∧ ∀ A B, (X.lup A B).isSome :=
  ⟨idealSolver 1, ⟨idealSolver 8, fun _ B => some B, 1⟩, idealSolver_finds 1, idealSolver_finds 8, fun _ _ => rfl⟩

/-- the hypotheses of C86_results can be met, with integers among the inputs -/
example (S : Solver 1) : ∃ m, pyNew S "voce_fcc_norm" (PyArr.ofList scriptPars) = .ok ⟨.fccA, m⟩ ∧
    PyChecks 26 (PyObjs.own { intObjs with spin := ⟨false, rowArr (k := 3) 0⟩, sdd := ⟨true, PyArr.zeros2 1 2⟩ }) (1 : ℕ) ∧
    ProperObjs { intObjs with spin := ⟨false, rowArr (k := 3) 0⟩, sdd := ⟨true, PyArr.zeros2 1 2⟩ } ∧
    Doubles { intObjs with spin := ⟨false, rowArr (k := 3) 0⟩, sdd := ⟨true, PyArr.zeros2 1 2⟩ } := by
  obtain ⟨m, hm, -⟩ := script_uses S
  have hz2 := rowOf_zeros 2
  have hz2' : (PyArr.zeros2 1 2).atleast2d = PyArr.zeros2 1 2 := atleast2d_two (r := 1) (c := 2) rfl
  refine ⟨m, hm, ⟨(row_vec _).check, (row_vec _).check, (row_vec _).check, (row_vec _).check, (row_vec _).check,
    (row_vec _).check, (row_vec _).check, by have := hz2.check; rwa [hz2'] at this⟩,
    ⟨(row_vec _).proper, ⟨(row_vec (k := 3) 0).proper.1, fun h => absurd h (by simp)⟩, (row_vec _).proper,
      (row_vec _).proper, (row_vec _).proper, (row_vec _).proper, (row_vec _).proper, by
        have := hz2.proper; rwa [hz2'] at this⟩, ⟨rfl, rfl, rfl, rfl, rfl⟩⟩

/-- a call that raises an exception: a solver that never converges -/
example (S : Solver 1) (hS : Finds S) : ∃ m msg o', pyNew S "voce_fcc_norm" (PyArr.ofList scriptPars) = .ok ⟨.fccA, m⟩ ∧
    pyCall ⟨fun _ _ _ x => ⟨false, x, x, 1⟩, fun _ B => some B, 1⟩ m (1 / 10)
      { intObjs with sdd := ⟨true, PyArr.zeros2 1 2⟩ } (1 : ℕ) = .fail msg o' := by
  obtain ⟨m, o1, m1, hm, hchk, hp, -, hok, -⟩ := C86_refuted_integers S hS ⟨idealSolver 8, fun _ B => some B, 1⟩
    (idealSolver_finds 8) fun _ _ => rfl
  obtain ⟨m2, hm2, hU⟩ := script_uses S
  have e : m2 = m := by
    rw [hm] at hm2
    cases hm2
    rfl
  subst e
  obtain ⟨W⟩ := getResponseSngl_ok hok
  have hset := Step.setup_eq_ok (M := scriptMat S) W.hq W.hcv W.hdt W.hv W.hH W.hV
  have hfail : ∃ msg m', getResponseSngl ⟨fun _ _ _ x => ⟨false, x, x, 1⟩, fun _ B => some B, 1⟩ (scriptMat S)
      (rowInp (PyObjs.own intObjs) (1 / 10) (1 / 10 ^ 10) 0) (rowMem (PyObjs.own intObjs) 0) = .fail msg m' := by
    obtain ⟨msg, m', h, -⟩ := C57_solver ⟨fun _ _ _ x => ⟨false, x, x, 1⟩, fun _ B => some B, 1⟩ _ _ _ _ _ hset (Or.inl rfl)
    exact ⟨msg, m', h⟩
  obtain ⟨msg, m', hfail⟩ := hfail
  have hz2 := rowOf_zeros 2
  have hz2' : (PyArr.zeros2 1 2).atleast2d = PyArr.zeros2 1 2 := atleast2d_two (r := 1) (c := 2) rfl
  obtain ⟨r1, r2, -, -⟩ := call_rows hU { intObjs with sdd := ⟨true, PyArr.zeros2 1 2⟩ } 1
    (by norm_num [Case.type, MType.numHist, numHist]) hchk
    ⟨hp.defRate, hp.spin, hp.volRatio, hp.eInt, hp.stress, hp.hist, hp.tkelv, by
      have := hz2.proper; rwa [hz2'] at this⟩ ⟨fun _ _ _ x => ⟨false, x, x, 1⟩, fun _ B => some B, 1⟩ (1 / 10)
  cases h : pyCall ⟨fun _ _ _ x => ⟨false, x, x, 1⟩, fun _ B => some B, 1⟩ m2 (1 / 10)
      { intObjs with sdd := ⟨true, PyArr.zeros2 1 2⟩ } (1 : ℕ) with
  | ok o' =>
    obtain ⟨m3, h3⟩ := r1.1 ⟨o', h⟩ 0 one_pos
    have h3' : getResponseSngl _ (scriptMat S) (rowInp (PyObjs.own intObjs) (1 / 10) (1 / 10 ^ 10) 0)
      (rowMem (PyObjs.own intObjs) 0) = .ok m3 := h3
    rw [hfail] at h3'
    cases h3'
  | fail s o' => exact ⟨m2, s, o', hm, h⟩
  | undef w =>
    obtain ⟨i, hi, h3⟩ := r2 w h
    obtain rfl : i = 0 := by omega
    have h3' : getResponseSngl _ (scriptMat S) (rowInp (PyObjs.own intObjs) (1 / 10) (1 / 10 ^ 10) 0)
      (rowMem (PyObjs.own intObjs) 0) = .undef w := h3
    rw [hfail] at h3'
    cases h3'

/-- **C86, refuted for the temperature of the single-point binding.** What getState computes for the temperature never
    reaches the caller: the caller's number is as before, also if the temperature of the step is another. -/
theorem C86_refuted_temperature (el : Elast) (D : DevProb n nH) (xLast x : Vec 8) (v v' : DevVars nH n)
    (h : devCallState el D xLast x v = .ok v') (ht : v.tkelv ≠ D.tkelv) :
    (∃ o, devGetState el D xLast x v.hist = .ok o ∧ o.tkelv = D.tkelv) ∧ v'.tkelv = v.tkelv ∧ v'.tkelv ≠ D.tkelv := by
  unfold devCallState at h
  obtain ⟨o, ho, h⟩ := Out.bind_ok h
  cases h
  refine ⟨⟨o, ho, ?_⟩, rfl, ht⟩
  unfold devGetState at ho
  obtain ⟨g, -, ho⟩ := Out.bind_ok ho
  cases ho
  rfl

/-- the hypotheses can be met -/
example : ∃ (D : DevProb 12 1) (xLast x : Vec 8) (v v' : DevVars 1 12),
    devCallState exEl D xLast x v = .ok v' ∧ v.tkelv ≠ D.tkelv := by
  obtain ⟨m', h⟩ := ex_ok exEl exEl_pos 0 none
  obtain ⟨D, o, h1, h2, -⟩ := C60_state _ _ _ _ _ h
  have h2 : devGetState exEl D (Step.lastX (Step.solve exExt (exInp exEl 0) D.prob) (exMem 0 none).mtan.isSome)
      (Step.solve exExt (exInp exEl 0) D.prob).x (exMem 0 none).hist = .ok o := h2
  refine ⟨D, Step.lastX (Step.solve exExt (exInp exEl 0) D.prob) (exMem 0 none).mtan.isSome,
    (Step.solve exExt (exInp exEl 0) D.prob).x, { eInt := none, stress := 0, hist := (exMem 0 none).hist, tkelv := D.tkelv + 1, sdd := 0 },
    { eInt := o.eInt, stress := o.stress, hist := o.hist, tkelv := D.tkelv + 1, sdd := o.sdd }, ?_, by simp⟩
  unfold devCallState
  rw [h2]
  rfl

end Ecm.Props
