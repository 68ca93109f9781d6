/-
  C61: the parallel loops.  Every interleaving of the single reads and writes of the points gives the
  arrays of the sequential loop, and every schedule comes to an end.
-/
import Verif.Lemmas.Parallel
import Verif.Props.Batch

namespace Ecm.Props
open Ecm Ecm.Spec Classical

variable {n nH : ℕ}

/-- the elements that belong to point `i` -/
def PointElems (nHist : ℕ) (st : Strides) (b : BatchMem) (i : ℕ) : Set Loc := {l |
  match l with
  | (.eInt, p) => OwnedBy st.intEng 1 i p
  | (.stress, p) => OwnedBy st.stress 7 i p
  | (.hist, p) => OwnedBy st.history nHist i p
  | (.tkelv, p) => OwnedBy st.tkelv 1 i p
  | (.sdd, p) => OwnedBy st.sdd 2 i p
  | (.mtan, p) => b.mtan.isSome ∧ OwnedBy 36 36 i p}

/-- `p` carries out the body of the loop for point `i` on the arrays `b`: it touches only elements of
    the point, and when it runs alone these elements hold the result of the body afterwards -/
structure CarriesOut (X : Ext) (M : Material n nH) (st : Strides) (a : BatchIn) (b : BatchMem) (i : ℕ)
    (p : Prog) : Prop where
  within : p.Within (PointElems (numHist nH n) st b i)
  result : ∀ b', batchPoint X M st a i b = .ok b' →
    ∀ l ∈ PointElems (numHist nH n) st b i, p.exec b.toStore l = b'.toStore l

theorem pointElems_disjoint {st : Strides} {b : BatchMem} (hA : st.Accepted (numHist nH n)) {i j : ℕ}
    (hij : i ≠ j) (l : Loc) (h : l ∈ PointElems (numHist nH n) st b i) :
    l ∉ PointElems (numHist nH n) st b j := by
  intro h'
  apply hij
  rcases l with ⟨r, p⟩
  cases r
  · exact C35_windows_disjoint _ _ _ _ _ hA.intEng h h'
  · exact C35_windows_disjoint _ _ _ _ _ hA.stress h h'
  · exact C35_windows_disjoint _ _ _ _ _ hA.history h h'
  · exact C35_windows_disjoint _ _ _ _ _ hA.tkelv h h'
  · exact C35_windows_disjoint _ _ _ _ _ hA.sdd h h'
  · exact C35_windows_disjoint _ _ _ _ _ (le_refl 36) h.2 h'.2

/-- the elements of a point are determined by what the point sees -/
theorem elems_of_pointMem {st : Strides} {b c : BatchMem} {i : ℕ}
    (h : (pointMem st b i : Mem nH n) = pointMem st c i) :
    ∀ l ∈ PointElems (numHist nH n) st b i, b.toStore l = c.toStore l := by
  simp only [pointMem, Mem.mk.injEq] at h
  obtain ⟨h1, h2, h3, h4, h5, h6⟩ := h
  have key : ∀ {f g : ℕ → ℝ} {s w p : ℕ}, slice f s i w = slice g s i w → OwnedBy s w i p →
      f p = g p := by
    intro f g s w p hs ho
    obtain ⟨h1, h2⟩ := ho
    have := congrFun hs ⟨p - s * i, by omega⟩
    simp only [slice] at this
    rwa [show s * i + (p - s * i) = p by omega] at this
  rintro ⟨r, p⟩ hl
  cases r
  · obtain ⟨h7, h8⟩ : st.intEng * i ≤ p ∧ p < st.intEng * i + 1 := hl
    rw [show p = st.intEng * i by omega]; exact h1
  · exact key h2 hl
  · exact key h3 hl
  · obtain ⟨h7, h8⟩ : st.tkelv * i ≤ p ∧ p < st.tkelv * i + 1 := hl
    rw [show p = st.tkelv * i by omega]; exact h4
  · exact key h5 hl
  · obtain ⟨hs, h7, h8⟩ : b.mtan.isSome ∧ 36 * i ≤ p ∧ p < 36 * i + 36 := hl
    obtain ⟨t, ht⟩ := Option.isSome_iff_exists.1 hs
    rw [ht] at h6
    cases hc : c.mtan with
    | none => rw [hc] at h6; cases h6
    | some t' =>
      rw [hc] at h6
      have h9 := congrFun (congrFun (Option.some.inj h6) ⟨(p - 36 * i) / 6, by omega⟩)
        ⟨(p - 36 * i) % 6, by omega⟩
      simp only [slice] at h9
      rw [show 36 * i + (6 * ((p - 36 * i) / 6) + (p - 36 * i) % 6) = p by omega] at h9
      simp only [BatchMem.toStore, ht, hc]
      exact h9

/-- what the loop body returns for a point -/
theorem batchPoint_ok {X : Ext} {M : Material n nH} {st : Strides} {a : BatchIn} {b b' : BatchMem}
    {i : ℕ} (h : batchPoint X M st a i b = .ok b') :
    ∃ m, getResponseSngl X M (batchInp st a i) (batchMem st b i) = .ok m ∧ b' = b.store st i m := by
  unfold batchPoint at h
  split_ifs at h with hS
  cases hr : getResponseSngl X M (batchInp st a i) (batchMem st b i) with
  | undef w => rw [hr] at h; cases h
  | fail s m => rw [hr] at h; cases h
  | ok m =>
    rw [hr] at h
    exact ⟨m, rfl, (Res.ok.inj h).symm⟩

/-- **C61.** Let thread `i` carry out the body of the loop for point `i`, whatever the order of its own
    reads and writes.  If every point succeeds, then under every schedule, once all threads have
    finished, every element of every array is what the sequential call leaves. -/
theorem C61_every_interleaving (X : Ext) (M : Material n nH) (st : Strides) (a : BatchIn)
    (b b' : BatchMem) (N : ℕ) (hA : st.Accepted (numHist nH n))
    (hH : ∀ i < N, Holds (numHist nH n) st a b i) (hO : ∀ i < N, NoOverflow st b i)
    (p : Fin N → Prog) (hp : ∀ i : Fin N, CarriesOut X M st a b i (p i))
    (hseq : getResponseECM X M st true a N b = .ok b')
    (c : Conf N) (hrun : Conf.Run (p, b.toStore) c) (hfin : c.Finished) :
    c.2 = b'.toStore := by
  obtain ⟨-, hkeep, hout⟩ := Conf.Run.keep (F := fun i : Fin N => PointElems (numHist nH n) st b i)
    (fun i j hij l hl => pointElems_disjoint hA (fun h => hij (Fin.ext h)) l hl)
    (fun i => (hp i).within) hrun
  simp only [getResponseECM, if_true] at hseq
  have hpt := (C35_independent X M st a b N hA hH hO _ (List.Perm.refl _)).2 b' hseq
  have hoo := C36_only_own_windows X M st a N _ (fun i hi => by simpa using hi) (fun i hi => (hO i hi).1)
    b b' (Or.inl hseq)
  have hT : b'.mtan.isSome = b.mtan.isSome := by
    cases hb : b.mtan with
    | none => rw [hoo.mtanNone hb]
    | some t => obtain ⟨t', h1, -⟩ := hoo.mtan t hb; rw [h1]; rfl
  funext l
  by_cases hl : ∃ i : Fin N, l ∈ PointElems (numHist nH n) st b i
  · obtain ⟨i, hi⟩ := hl
    have h1 := hkeep i l hi
    rw [hfin i] at h1
    rw [show c.2 l = _ from h1]
    have hg := hpt i i.isLt
    have hg' := hg
    rw [← batchInp_eq (hO i i.isLt).1, ← batchMem_eq (hO i i.isLt).1] at hg'
    have hS := safe_of (hH i i.isLt) (hO i i.isLt)
    have hb : batchPoint X M st a i b = .ok (b.store st i (pointMem st b' i : Mem nH n)) := by
      unfold batchPoint
      rw [if_pos hS, hg']
    rw [(hp i).result _ hb l hi]
    have hsame : (pointMem st (b.store st i (pointMem st b' i : Mem nH n)) i : Mem nH n)
        = pointMem st b' i := by
      rw [← batchMem_eq (hO i i.isLt).1 (b.store st i _)]
      refine batchMem_store_same ?_
      rw [← hT]
      simp only [pointMem]
      cases b'.mtan <;> rfl
    refine elems_of_pointMem hsame l ?_
    rcases l with ⟨r, q⟩
    cases r <;> try exact hi
    exact ⟨by rw [store_mtan_isSome]; exact hi.1, hi.2⟩
  · push Not at hl
    rw [hout l hl]
    have nown : ∀ {s w q : ℕ}, (∀ i : Fin N, ¬ OwnedBy s w i q) → ¬ Owned s w N q := by
      rintro s w q h ⟨i, hi, h2⟩
      exact h ⟨i, hi⟩ h2
    rcases l with ⟨r, q⟩
    cases r
    · exact (hoo.eInt q (nown hl)).symm
    · exact (hoo.stress q (nown hl)).symm
    · exact (hoo.hist q (nown hl)).symm
    · exact (hoo.tkelv q (nown hl)).symm
    · exact (hoo.sdd q (nown hl)).symm
    · cases hb : b.mtan with
      | none => simp only [BatchMem.toStore, hb, hoo.mtanNone hb]
      | some t =>
        obtain ⟨t', h1, -, h2⟩ := hoo.mtan t hb
        simp only [BatchMem.toStore, hb, h1]
        refine (h2 q (nown fun i ho => hl i ⟨by rw [hb]; rfl, ho⟩)).symm

/-- **C61.** No schedule goes on forever: there is no infinite sequence of steps. -/
theorem C61_terminates {N : ℕ} (f : ℕ → Conf N) : ¬ ∀ k, Conf.Step (f k) (f (k + 1)) := by
  intro h
  have key : ∀ c : Conf N, Acc (fun d e => Conf.Step e d) c → ∀ k, f k ≠ c := by
    intro c hc
    induction hc with
    | intro c _ ih => intro k hk; exact ih (f (k + 1)) (hk ▸ h k) (k + 1) rfl
  exact key (f 0) (Conf.acc _) 0 rfl

/-- **C61.** No thread waits for another: a schedule can only stop when all threads have finished. -/
theorem C61_no_deadlock {N : ℕ} (c : Conf N) (h : ∀ d, ¬ Conf.Step c d) : c.Finished := by
  rcases c.progress with hf | ⟨d, hd⟩
  · exact hf
  · exact absurd hd (h d)

theorem pointLocs_iff {st : Strides} {b : BatchMem} {i : ℕ} (hO : NoOverflow st b i) (l : Loc) :
    l ∈ pointLocs (numHist nH n) st b i ↔ l ∈ PointElems (numHist nH n) st b i := by
  obtain ⟨hw, -⟩ := hO
  have rng : ∀ {s w q : ℕ}, (∃ k < w, s * i + k = q) ↔ (s * i ≤ q ∧ q < s * i + w) := by
    intro s w q
    constructor
    · rintro ⟨k, hk, rfl⟩; omega
    · rintro ⟨h1, h2⟩; exact ⟨q - s * i, by omega, by omega⟩
  rcases l with ⟨r, q⟩
  have hif : (r, q) ∈ (if b.mtan.isSome then (List.range 36).map (fun k => ((.mtan, 36 * i + k) : Loc))
      else []) ↔ r = .mtan ∧ b.mtan.isSome ∧ 36 * i ≤ q ∧ q < 36 * i + 36 := by
    by_cases h : b.mtan.isSome
    · simp only [h, if_true, List.mem_map, List.mem_range, Prod.mk.injEq, true_and, ← rng]
      constructor
      · rintro ⟨k, hk, rfl, rfl⟩; exact ⟨rfl, k, hk, rfl⟩
      · rintro ⟨rfl, k, hk, rfl⟩; exact ⟨k, hk, rfl, rfl⟩
    · simp [h]
  have one : ∀ {s q : ℕ}, q = s * i ↔ (s * i ≤ q ∧ q < s * i + 1) := by
    intro s q; omega
  cases r <;>
    simp only [pointLocs, List.mem_append, hif, List.mem_singleton, List.mem_map, List.mem_range,
      Prod.mk.injEq, reduceCtorEq, false_and, and_false, exists_false, or_false, false_or, true_and,
      PointElems, OwnedBy, Set.mem_setOf_eq, offU_eq hw.intEng, offU_eq hw.stress,
      offU_eq hw.history, offU_eq hw.tkelv, offU_eq hw.sdd, rng, one]

/-- **C61.** The program that reads all its elements, updates and writes all its elements is such a
    thread; so such threads exist for every material, point and memory. -/
theorem C61_read_update_write (X : Ext) (M : Material n nH) (st : Strides) (a : BatchIn) (b : BatchMem)
    (i : ℕ) (hO : NoOverflow st b i) : CarriesOut X M st a b i (pointProg X M st a b i) := by
  have hin : ∀ l ∈ pointLocs (numHist nH n) st b i, l ∈ PointElems (numHist nH n) st b i :=
    fun l hl => (pointLocs_iff hO l).1 hl
  refine ⟨?_, ?_⟩
  · refine readAll_within ?_ _ hin _
    intro s
    unfold pointThen
    split
    · exact writeAll_within _ _ hin
    · exact .done
  · intro b' hb' l hl
    obtain ⟨m, hm, rfl⟩ := batchPoint_ok hb'
    obtain ⟨acc, h1, h2, -⟩ := readAll_exec (pointThen X M st a b i) (pointLocs (numHist nH n) st b i) (fun _ => 0) b.toStore
    have hacc : ∀ l ∈ PointElems (numHist nH n) st b i, acc l = b.toStore l :=
      fun l hl => h2 l ((pointLocs_iff hO l).2 hl)
    have hw := hO.1
    have hview : (batchMem st (b.withStore acc) i : Mem nH n) = batchMem st b i := by
      unfold batchMem
      simp only [offU_eq hw.intEng, offU_eq hw.stress, offU_eq hw.history, offU_eq hw.tkelv,
        offU_eq hw.sdd]
      congr 1
      · exact hacc (.eInt, _) ⟨le_refl _, by omega⟩
      · funext j; exact hacc (.stress, _) ⟨by omega, by omega⟩
      · funext j; exact hacc (.hist, _) ⟨by omega, by omega⟩
      · exact hacc (.tkelv, _) ⟨le_refl _, by omega⟩
      · funext j; exact hacc (.sdd, _) ⟨by omega, by omega⟩
      · cases hb : b.mtan with
        | none => simp [BatchMem.withStore, hb]
        | some t =>
          simp only [BatchMem.withStore, hb, Option.map_some]
          congr 1
          funext p q
          have := hacc (.mtan, 36 * i + (6 * p.val + q.val))
            ⟨by rw [hb]; rfl, by omega, by omega⟩
          simp only [BatchMem.toStore, hb] at this
          simpa [matOfWin, Buf.win] using this
    have hex : (pointProg X M st a b i).exec b.toStore
        = (writeAll ((b.withStore acc).store st i m).toStore (pointLocs (numHist nH n) st b i)).exec
          b.toStore := by
      unfold pointProg
      rw [h1]
      unfold pointThen
      rw [hview, hm]
    rw [hex, (writeAll_exec _ _ _).1 l ((pointLocs_iff hO l).2 hl)]
    have hsome : m.mtan.isSome = b.mtan.isSome := by
      rw [getResponseSngl_mtan.1 _ hm]; simp [batchMem]
    refine elems_of_pointMem (nH := nH) (n := n) (st := st) (i := i) ?_ l ?_
    · rw [← batchMem_eq hw, ← batchMem_eq hw, batchMem_store_same, batchMem_store_same hsome]
      rw [hsome]; simp [BatchMem.withStore]
    · rcases l with ⟨r, q⟩
      cases r <;> try exact hl
      refine ⟨?_, hl.2⟩
      rw [store_mtan_isSome]
      simpa [BatchMem.withStore] using hl.1

/-- **C61.** Together: the parallel call of these threads always comes to an end, and always with the
    arrays of the sequential call. -/
theorem C61_parallel_call (X : Ext) (M : Material n nH) (st : Strides) (a : BatchIn)
    (b b' : BatchMem) (N : ℕ) (hA : st.Accepted (numHist nH n))
    (hH : ∀ i < N, Holds (numHist nH n) st a b i) (hO : ∀ i < N, NoOverflow st b i)
    (hseq : getResponseECM X M st true a N b = .ok b') :
    (∃ c, Conf.Run ((fun i : Fin N => pointProg X M st a b i), b.toStore) c ∧ c.Finished) ∧
    ∀ c, Conf.Run ((fun i : Fin N => pointProg X M st a b i), b.toStore) c → c.Finished →
      c.2 = b'.toStore :=
  ⟨Conf.finishes _, fun c hr hf => C61_every_interleaving X M st a b b' N hA hH hO _
    (fun i => C61_read_update_write X M st a b i (hO i i.isLt)) hseq c hr hf⟩

/-- the hypotheses can be met: two points with padded strides and the tangent asked for -/
example : ∃ b', getResponseECM exExt (exMat exEl) exStrides true (exBatchIn (exInp exEl 0)) 2
      (exBatchMem (exMem 0 (some 0))) = .ok b' ∧
    exStrides.Accepted (numHist 1 12) ∧
    (∀ i < 2, Holds (numHist 1 12) exStrides (exBatchIn (exInp exEl 0)) (exBatchMem (exMem 0 (some 0))) i) ∧
    (∀ i < 2, NoOverflow exStrides (exBatchMem (exMem 0 (some 0))) i) := by
  have hA : exStrides.Accepted (numHist 1 12) := by constructor <;> decide
  have hH : ∀ i < 2, Holds (numHist 1 12) exStrides (exBatchIn (exInp exEl 0))
      (exBatchMem (exMem 0 (some 0))) i := by
    intro i hi
    constructor <;> (try (intro t ht; cases ht)) <;>
      simp only [exStrides, exBatchIn, exBatchMem, numHist] <;> omega
  have hO : ∀ i < 2, NoOverflow exStrides (exBatchMem (exMem 0 (some 0))) i := by
    intro i hi
    refine ⟨?_, fun _ => by omega⟩
    constructor <;> simp only [exStrides] <;> omega
  obtain ⟨b', hb'⟩ := (C35_independent exExt (exMat exEl) exStrides (exBatchIn (exInp exEl 0))
    (exBatchMem (exMem 0 (some 0))) 2 hA hH hO _ (List.Perm.refl _)).1.2 (by
      obtain ⟨m', hm'⟩ := ex_ok exEl exEl_pos 0 (some 0)
      intro i hi
      refine ⟨m', ?_⟩
      rw [ex_pointInp, ex_pointMem]
      exact hm')
  exact ⟨b', hb', hA, hH, hO⟩

end Ecm.Props
