/-
  Properties of the batch interface: C35 (independence), C36 (writes only own windows), C37 (stride
  validation), C49 (index arithmetic).
-/
import Verif.Lemmas.Batch
import Verif.Lemmas.Example

namespace Ecm.Props
open Ecm Ecm.Spec Classical

variable {n nH : ℕ}

/-- what belongs to point `i` in the read-only arrays -/
def pointInp (st : Strides) (a : BatchIn) (i : ℕ) : Inputs where
  dt := a.dt
  tol := a.tol
  d := slice a.defRate.val st.defRate i 7
  w := slice a.spin.val st.spin i 3
  vr := slice a.volRatio.val st.volRatio i 4

/-- what belongs to point `i` in the read-write arrays -/
def pointMem (st : Strides) (b : BatchMem) (i : ℕ) : Mem nH n where
  eInt := b.eInt.val (st.intEng * i)
  stress := slice b.stress.val st.stress i 7
  hist := slice b.hist.val st.history i (numHist nH n)
  tkelv := b.tkelv.val (st.tkelv * i)
  sdd := slice b.sdd.val st.sdd i 2
  mtan := b.mtan.map fun t p q => slice t.val 36 i 36 ⟨6 * p.val + q.val, by omega⟩

/-- the arrays are long enough for point `i` -/
structure Holds (nHist : ℕ) (st : Strides) (a : BatchIn) (b : BatchMem) (i : ℕ) : Prop where
  defRate : st.defRate * i + 7 ≤ a.defRate.len
  spin : st.spin * i + 3 ≤ a.spin.len
  volRatio : st.volRatio * i + 4 ≤ a.volRatio.len
  eInt : st.intEng * i + 1 ≤ b.eInt.len
  stress : st.stress * i + 7 ≤ b.stress.len
  hist : st.history * i + nHist ≤ b.hist.len
  tkelv : st.tkelv * i + 1 ≤ b.tkelv.len
  sdd : st.sdd * i + 2 ≤ b.sdd.len
  mtan : ∀ t, b.mtan = some t → 36 * i + 36 ≤ t.len

/-- the index arithmetic of the code does not overflow for point `i` -/
def NoOverflow (st : Strides) (b : BatchMem) (i : ℕ) : Prop :=
  st.NoWrap i ∧ (b.mtan.isSome → 36 * i < 2 ^ 31)

theorem batchInp_eq {st : Strides} {i : ℕ} (h : st.NoWrap i) (a : BatchIn) :
    batchInp st a i = pointInp st a i := by
  unfold batchInp pointInp
  rw [offU_eq h.defRate, offU_eq h.spin, offU_eq h.volRatio]
  rfl

theorem batchMem_eq {st : Strides} {i : ℕ} (h : st.NoWrap i) (b : BatchMem) :
    (batchMem st b i : Mem nH n) = pointMem st b i := by
  unfold batchMem pointMem
  rw [offU_eq h.intEng, offU_eq h.stress, offU_eq h.history, offU_eq h.tkelv, offU_eq h.sdd]
  rfl

theorem safe_of {nHist : ℕ} {st : Strides} {a : BatchIn} {b : BatchMem} {i : ℕ}
    (h : Holds nHist st a b i) (h2 : NoOverflow st b i) : Safe nHist st a b i := by
  obtain ⟨hw, ht⟩ := h2
  refine ⟨?_, ?_, ?_, ?_, ?_, ?_, ?_, ?_, ?_⟩
  · rw [offU_eq hw.defRate]; exact h.defRate
  · rw [offU_eq hw.spin]; exact h.spin
  · rw [offU_eq hw.volRatio]; exact h.volRatio
  · rw [offU_eq hw.intEng]; exact h.eInt
  · rw [offU_eq hw.stress]; exact h.stress
  · rw [offU_eq hw.history]; exact h.hist
  · rw [offU_eq hw.tkelv]; exact h.tkelv
  · rw [offU_eq hw.sdd]; exact h.sdd
  · intro t hb
    exact ⟨ht (by rw [hb]; rfl), h.mtan t hb⟩

/-- **C35.** The points of a batch are independent: with accepted strides, arrays that hold the `N`
    points, and no index overflow, the loop over the points in any order succeeds exactly when the
    single-point update of each point's own data succeeds; each point then holds exactly the result of
    that single-point update. -/
theorem C35_independent (X : Ext) (M : Material n nH) (st : Strides) (a : BatchIn) (b : BatchMem)
    (N : ℕ) (hA : st.Accepted (numHist nH n))
    (hH : ∀ i < N, Holds (numHist nH n) st a b i) (hO : ∀ i < N, NoOverflow st b i)
    (order : List ℕ) (hord : order.Perm (List.range N)) :
    ((∃ b', batchLoop X M st a order b = .ok b') ↔
      ∀ i < N, ∃ m', getResponseSngl X M (pointInp st a i) (pointMem st b i) = .ok m') ∧
    (∀ b', batchLoop X M st a order b = .ok b' → ∀ i < N,
      getResponseSngl X M (pointInp st a i) (pointMem st b i) = .ok (pointMem st b' i)) := by
  have hmem : ∀ i, i ∈ order ↔ i < N := fun i => by rw [hord.mem_iff]; simp
  have hnd : order.Nodup := hord.nodup_iff.2 List.nodup_range
  have hW : ∀ i ∈ order, st.NoWrap i := fun i hi => (hO i ((hmem i).1 hi)).1
  have hS : ∀ i ∈ order, Safe (numHist nH n) st a b i := fun i hi =>
    safe_of (hH i ((hmem i).1 hi)) (hO i ((hmem i).1 hi))
  have hspec := batchLoop_spec (X := X) (M := M) (a := a) hA order b hnd hW hS
  have hpt : ∀ i < N, getResponseSngl X M (batchInp st a i) (batchMem st b i)
      = getResponseSngl X M (pointInp st a i) (pointMem st b i) := by
    intro i hi
    rw [batchInp_eq (hO i hi).1, batchMem_eq (hO i hi).1]
  refine ⟨⟨?_, ?_⟩, ?_⟩
  · rintro ⟨b', hb⟩ i hi
    rw [hb] at hspec
    obtain ⟨m, h1, -⟩ := hspec
    exact ⟨m i, by rw [← hpt i hi]; exact h1 i ((hmem i).2 hi)⟩
  · intro hall
    cases hb : batchLoop X M st a order b with
    | ok b' => exact ⟨b', rfl⟩
    | fail s b' =>
      rw [hb] at hspec
      obtain ⟨m, l1, i, l2, mf, rfl, -, h2, -⟩ := hspec
      have hi : i < N := (hmem i).1 (by simp)
      obtain ⟨m', hm'⟩ := hall i hi
      rw [hpt i hi, hm'] at h2
      cases h2
    | undef w =>
      rw [hb] at hspec
      obtain ⟨i, hi, h2⟩ := hspec
      obtain ⟨m', hm'⟩ := hall i ((hmem i).1 hi)
      rw [hpt i ((hmem i).1 hi), hm'] at h2
      cases h2
  · intro b' hb i hi
    rw [hb] at hspec
    obtain ⟨m, h1, rfl⟩ := hspec
    have hr := h1 i ((hmem i).2 hi)
    rw [← hpt i hi, hr]
    congr 1
    rw [← batchMem_eq (hO i hi).1]
    refine (foldl_view_in hA order b hnd hW ((hmem i).2 hi) ?_).symm
    rw [getResponseSngl_mtan.1 _ hr]
    simp [batchMem]

/-- **C35.** The order in which the points are processed makes no difference to the arrays. -/
theorem C35_order (X : Ext) (M : Material n nH) (st : Strides) (a : BatchIn) (b : BatchMem)
    (N : ℕ) (hA : st.Accepted (numHist nH n))
    (hH : ∀ i < N, Holds (numHist nH n) st a b i) (hO : ∀ i < N, NoOverflow st b i)
    (order order' : List ℕ) (hord : order.Perm (List.range N)) (hord' : order'.Perm (List.range N))
    (b' : BatchMem) (h : batchLoop X M st a order b = .ok b') :
    batchLoop X M st a order' b = .ok b' := by
  have key : ∀ l : List ℕ, l.Perm (List.range N) → l.Nodup ∧ (∀ i, i ∈ l ↔ i < N) := fun l hl =>
    ⟨hl.nodup_iff.2 List.nodup_range, fun i => by rw [hl.mem_iff]; simp⟩
  obtain ⟨hnd, hmem⟩ := key order hord
  obtain ⟨hnd', hmem'⟩ := key order' hord'
  obtain ⟨c', hc'⟩ := (C35_independent X M st a b N hA hH hO order' hord').1.2
    ((C35_independent X M st a b N hA hH hO order hord).1.1 ⟨b', h⟩)
  have s1 := batchLoop_spec (X := X) (M := M) (a := a) hA order b hnd
    (fun i hi => (hO i ((hmem i).1 hi)).1)
    (fun i hi => safe_of (hH i ((hmem i).1 hi)) (hO i ((hmem i).1 hi)))
  have s2 := batchLoop_spec (X := X) (M := M) (a := a) hA order' b hnd'
    (fun i hi => (hO i ((hmem' i).1 hi)).1)
    (fun i hi => safe_of (hH i ((hmem' i).1 hi)) (hO i ((hmem' i).1 hi)))
  rw [h] at s1
  rw [hc'] at s2
  obtain ⟨m, h1, rfl⟩ := s1
  obtain ⟨m', h1', rfl⟩ := s2
  rw [hc']
  congr 1
  rw [← foldl_perm (m := m') hA (hord.trans hord'.symm) (fun i hi => (hO i ((hmem i).1 hi)).1) b]
  refine List.foldl_ext _ _ _ ?_
  intro c i hi
  have e := h1' i ((hmem' i).2 ((hmem i).1 hi))
  rw [h1 i hi] at e
  rw [Res.ok.inj e]

/-- **C35.** If the loop fails, then some point fails on its own with the same message; the points
    processed before it hold their own results, the points after it are as before. -/
theorem C35_failure (X : Ext) (M : Material n nH) (st : Strides) (a : BatchIn) (b : BatchMem)
    (N : ℕ) (hA : st.Accepted (numHist nH n))
    (hH : ∀ i < N, Holds (numHist nH n) st a b i) (hO : ∀ i < N, NoOverflow st b i)
    (order : List ℕ) (hord : order.Perm (List.range N)) (msg : String) (b' : BatchMem)
    (h : batchLoop X M st a order b = .fail msg b') :
    ∃ (before : List ℕ) (i : ℕ) (after : List ℕ), order = before ++ i :: after ∧
      getResponseSngl X M (pointInp st a i) (pointMem st b i) = .fail msg (pointMem st b' i) ∧
      (∀ j ∈ before,
        getResponseSngl X M (pointInp st a j) (pointMem st b j) = .ok (pointMem st b' j)) ∧
      (∀ j ∈ after, (pointMem st b' j : Mem nH n) = pointMem st b j) := by
  have hmem : ∀ i, i ∈ order ↔ i < N := fun i => by rw [hord.mem_iff]; simp
  have hnd : order.Nodup := hord.nodup_iff.2 List.nodup_range
  have hW : ∀ i ∈ order, st.NoWrap i := fun i hi => (hO i ((hmem i).1 hi)).1
  have hS : ∀ i ∈ order, Safe (numHist nH n) st a b i := fun i hi =>
    safe_of (hH i ((hmem i).1 hi)) (hO i ((hmem i).1 hi))
  have hspec := batchLoop_spec (X := X) (M := M) (a := a) hA order b hnd hW hS
  have hpt : ∀ i ∈ order, getResponseSngl X M (batchInp st a i) (batchMem st b i)
      = getResponseSngl X M (pointInp st a i) (pointMem st b i) := by
    intro i hi
    rw [batchInp_eq (hW i hi), batchMem_eq (hW i hi)]
  rw [h] at hspec
  obtain ⟨m, l1, i, l2, mf, rfl, h1, h2, rfl⟩ := hspec
  have hnd1 := List.nodup_append.1 hnd
  have hi2 : i ∉ l2 := (List.nodup_cons.1 hnd1.2.1).1
  have hi1 : i ∉ l1 := fun hh => hnd1.2.2 i hh i (by simp) rfl
  refine ⟨l1, i, l2, rfl, ?_, ?_, ?_⟩
  · rw [← hpt i (by simp), h2]
    congr 1
    rw [← batchMem_eq (hW i (by simp))]
    refine (batchMem_store_same ?_).symm
    rw [getResponseSngl_mtan.2 _ _ h2, foldl_isSome]
    simp [batchMem]
  · intro j hj
    have hji : i ≠ j := fun hh => hi1 (hh ▸ hj)
    rw [← hpt j (by simp [hj]), h1 j hj]
    congr 1
    rw [← batchMem_eq (hW j (by simp [hj])),
      batchMem_store_diff hA (hW i (by simp)) (hW j (by simp [hj])) hji]
    refine (foldl_view_in hA l1 b hnd1.1 (fun k hk => hW k (by simp [hk])) hj ?_).symm
    rw [getResponseSngl_mtan.1 _ (h1 j hj)]
    simp [batchMem]
  · intro j hj
    have hji : i ≠ j := fun hh => hi2 (hh ▸ hj)
    have hj1 : j ∉ l1 := fun hh => hnd1.2.2 j hh j (by simp [hj]) rfl
    rw [← batchMem_eq (hW j (by simp [hj])), ← batchMem_eq (hW j (by simp [hj])),
      batchMem_store_diff hA (hW i (by simp)) (hW j (by simp [hj])) hji]
    exact foldl_view_out hA l1 (hW j (by simp [hj])) b (fun k hk => hW k (by simp [hk])) hj1

/-- **C35.** No entry of an array belongs to two points, so that points processed at the same time
    cannot interfere. -/
theorem C35_windows_disjoint (s w i j pos : ℕ) (hw : w ≤ s) (hi : OwnedBy s w i pos)
    (hj : OwnedBy s w j pos) : i = j := by
  by_contra h
  unfold OwnedBy at hi hj
  rcases windows_apart hw h with h | h <;> omega

/-- nothing but the entries of the first `N` points differs between two states of the arrays -/
structure OnlyOwned (nHist : ℕ) (st : Strides) (N : ℕ) (b b' : BatchMem) : Prop where
  eInt : ∀ p, ¬ Owned st.intEng 1 N p → b'.eInt.val p = b.eInt.val p
  stress : ∀ p, ¬ Owned st.stress 7 N p → b'.stress.val p = b.stress.val p
  hist : ∀ p, ¬ Owned st.history nHist N p → b'.hist.val p = b.hist.val p
  tkelv : ∀ p, ¬ Owned st.tkelv 1 N p → b'.tkelv.val p = b.tkelv.val p
  sdd : ∀ p, ¬ Owned st.sdd 2 N p → b'.sdd.val p = b.sdd.val p
  mtanNone : b.mtan = none → b'.mtan = none
  mtan : ∀ t, b.mtan = some t → ∃ t', b'.mtan = some t' ∧ t'.len = t.len ∧
    ∀ p, ¬ Owned 36 36 N p → t'.val p = t.val p
  lens : b'.eInt.len = b.eInt.len ∧ b'.stress.len = b.stress.len ∧ b'.hist.len = b.hist.len ∧
    b'.tkelv.len = b.tkelv.len ∧ b'.sdd.len = b.sdd.len

theorem onlyOwned_refl (nHist : ℕ) (st : Strides) (N : ℕ) (b : BatchMem) :
    OnlyOwned nHist st N b b :=
  ⟨fun _ _ => rfl, fun _ _ => rfl, fun _ _ => rfl, fun _ _ => rfl, fun _ _ => rfl, fun h => h,
    fun t h => ⟨t, h, rfl, fun _ _ => rfl⟩, rfl, rfl, rfl, rfl, rfl⟩

theorem onlyOwned_trans {nHist : ℕ} {st : Strides} {N : ℕ} {b c d : BatchMem}
    (h : OnlyOwned nHist st N b c) (k : OnlyOwned nHist st N c d) : OnlyOwned nHist st N b d := by
  refine ⟨fun p hp => (k.eInt p hp).trans (h.eInt p hp),
    fun p hp => (k.stress p hp).trans (h.stress p hp),
    fun p hp => (k.hist p hp).trans (h.hist p hp),
    fun p hp => (k.tkelv p hp).trans (h.tkelv p hp),
    fun p hp => (k.sdd p hp).trans (h.sdd p hp),
    fun hb => k.mtanNone (h.mtanNone hb), ?_, k.lens.1.trans h.lens.1,
    k.lens.2.1.trans h.lens.2.1, k.lens.2.2.1.trans h.lens.2.2.1,
    k.lens.2.2.2.1.trans h.lens.2.2.2.1, k.lens.2.2.2.2.trans h.lens.2.2.2.2⟩
  intro t ht
  obtain ⟨t1, h1, l1, e1⟩ := h.mtan t ht
  obtain ⟨t2, h2, l2, e2⟩ := k.mtan t1 h1
  exact ⟨t2, h2, l2.trans l1, fun p hp => (e2 p hp).trans (e1 p hp)⟩

theorem onlyOwned_store {st : Strides} {N i : ℕ} (hi : i < N) (hw : st.NoWrap i) (b : BatchMem)
    (m : Mem nH n) : OnlyOwned (numHist nH n) st N b (b.store st i m) := by
  have out : ∀ {s w p : ℕ}, ¬ Owned s w N p → ¬ (s * i ≤ p ∧ p < s * i + w) :=
    fun hp hq => hp ⟨i, hi, hq⟩
  refine ⟨?_, ?_, ?_, ?_, ?_, ?_, ?_, rfl, rfl, rfl, rfl, rfl⟩
  · intro p hp
    refine Buf.put_val_out (k := 1) b.eInt (offU st.intEng i) (fun _ => m.eInt) p ?_
    rw [offU_eq hw.intEng]; exact out hp
  · intro p hp
    refine Buf.put_val_out _ _ _ _ ?_
    rw [offU_eq hw.stress]; exact out hp
  · intro p hp
    refine Buf.put_val_out _ _ _ _ ?_
    rw [offU_eq hw.history]; exact out hp
  · intro p hp
    refine Buf.put_val_out (k := 1) b.tkelv (offU st.tkelv i) (fun _ => m.tkelv) p ?_
    rw [offU_eq hw.tkelv]; exact out hp
  · intro p hp
    refine Buf.put_val_out _ _ _ _ ?_
    rw [offU_eq hw.sdd]; exact out hp
  · intro hb
    unfold BatchMem.store
    rw [hb]
  · intro t hb
    unfold BatchMem.store
    simp only [hb]
    cases m.mtan with
    | none => exact ⟨t, rfl, rfl, fun _ _ => rfl⟩
    | some v => exact ⟨_, rfl, rfl, fun p hp => Buf.put_val_out _ _ _ _ (out hp)⟩

/-- **C36.** Whatever the order and whether the loop succeeds or fails, it changes nothing but the
    entries of the points it was given: not the padding between points, not what lies at or beyond the
    entries of the last point; array lengths and the presence of the tangent stay.  (For strides and
    indices without index overflow; see C49.) -/
theorem C36_only_own_windows (X : Ext) (M : Material n nH) (st : Strides) (a : BatchIn) (N : ℕ)
    (order : List ℕ) (hord : ∀ i ∈ order, i < N) (hW : ∀ i < N, st.NoWrap i) (b b' : BatchMem)
    (h : batchLoop X M st a order b = .ok b' ∨ ∃ s, batchLoop X M st a order b = .fail s b') :
    OnlyOwned (numHist nH n) st N b b' := by
  induction order generalizing b with
  | nil =>
    rcases h with h | ⟨s, h⟩
    · cases h
      exact onlyOwned_refl _ _ _ _
    · cases h
  | cons i l ih =>
    have hi : i < N := hord i (by simp)
    simp only [batchLoop, batchPoint] at h
    by_cases hS : Safe (numHist nH n) st a b i
    · rw [if_pos hS] at h
      cases hr : getResponseSngl X M (batchInp st a i) (batchMem st b i) with
      | undef w => rw [hr] at h; simp at h
      | fail s m =>
        rw [hr] at h
        rcases h with h | ⟨s', h⟩
        · cases h
        · cases h
          exact onlyOwned_store hi (hW i hi) b m
      | ok m =>
        rw [hr] at h
        exact onlyOwned_trans (onlyOwned_store hi (hW i hi) b m)
          (ih (fun j hj => hord j (by simp [hj])) _ h)
    · rw [if_neg hS] at h
      simp at h

/-- **C36.** A call for no points succeeds and changes nothing. -/
theorem C36_zero_points (X : Ext) (M : Material n nH) (st : Strides) (a : BatchIn) (b : BatchMem) :
    getResponseECM X M st true a 0 b = .ok b := rfl

/-- **C36.** The same for the call as a whole. -/
theorem C36_call (X : Ext) (M : Material n nH) (st : Strides) (complete : Bool) (a : BatchIn) (N : ℕ)
    (hW : ∀ i < N, st.NoWrap i) (b b' : BatchMem)
    (h : getResponseECM X M st complete a N b = .ok b' ∨
      ∃ s, getResponseECM X M st complete a N b = .fail s b') :
    OnlyOwned (numHist nH n) st N b b' := by
  unfold getResponseECM at h
  cases complete with
  | false =>
    rcases h with h | ⟨s, h⟩
    · cases h
    · cases h
      exact onlyOwned_refl _ _ _ _
  | true => exact C36_only_own_windows X M st a N _ (fun i hi => by simpa using hi) hW b b' h

/-- **C37.** Constructing with eight strides succeeds exactly when each is at least its documented
    minimum, and stores them unchanged. -/
theorem C37_exact (nHist s0 s1 s2 s3 s4 s5 s6 s7 : ℕ) (rest : List ℕ) (st : Strides) :
    Strides.ctor nHist (s0 :: s1 :: s2 :: s3 :: s4 :: s5 :: s6 :: s7 :: rest) 8 = .ok st ↔
      (7 ≤ s0 ∧ 3 ≤ s1 ∧ 4 ≤ s2 ∧ 1 ≤ s3 ∧ 7 ≤ s4 ∧ nHist ≤ s5 ∧ 1 ≤ s6 ∧ 2 ≤ s7) ∧
      st = ⟨s0, s1, s2, s3, s4, s5, s6, s7⟩ := by
  simp only [Strides.ctor, ne_eq, not_true_eq_false, if_false]
  constructor
  · intro h
    split_ifs at h
    cases h
    refine ⟨by omega, rfl⟩
  · rintro ⟨h, rfl⟩
    rw [if_neg (by omega), if_neg (by omega), if_neg (by omega), if_neg (by omega),
      if_neg (by omega), if_neg (by omega), if_neg (by omega), if_neg (by omega)]

/-- **C37.** For a stride vector whose claimed length is its true length, the constructor succeeds
    exactly when there are eight entries that are at least 7, 3, 4, 1, 7, the number of history
    variables, 1, 2; in every other case it fails, and it is never undefined. -/
theorem C37_total (nHist : ℕ) (s : List ℕ) :
    ((∃ st, Strides.ctor nHist s s.length = .ok st) ↔
      s.length = 8 ∧ ∀ k : ℕ, ∀ v, s[k]? = some v →
        [7, 3, 4, 1, 7, nHist, 1, 2].getD k 0 ≤ v) ∧
    ((¬ ∃ st, Strides.ctor nHist s s.length = .ok st) →
      ∃ msg, Strides.ctor nHist s s.length = .fail msg) := by
  by_cases h8 : s.length = 8
  · obtain ⟨s0, s1, s2, s3, s4, s5, s6, s7, rfl⟩ :
        ∃ s0 s1 s2 s3 s4 s5 s6 s7, s = [s0, s1, s2, s3, s4, s5, s6, s7] := by
      rcases s with _ | ⟨s0, _ | ⟨s1, _ | ⟨s2, _ | ⟨s3, _ | ⟨s4, _ | ⟨s5, _ | ⟨s6, _ | ⟨s7, _ | _⟩⟩⟩⟩⟩⟩⟩⟩
      all_goals first | (simp at h8; done) | exact ⟨_, _, _, _, _, _, _, _, rfl⟩
    refine ⟨?_, ?_⟩
    · rw [h8]
      simp only [C37_exact]
      constructor
      · rintro ⟨_, h, -⟩
        refine ⟨trivial, fun k v hk => ?_⟩
        match k, hk with
        | 0, hk => simp at hk ⊢; omega
        | 1, hk => simp at hk ⊢; omega
        | 2, hk => simp at hk ⊢; omega
        | 3, hk => simp at hk ⊢; omega
        | 4, hk => simp at hk ⊢; omega
        | 5, hk => simp at hk ⊢; omega
        | 6, hk => simp at hk ⊢; omega
        | 7, hk => simp at hk ⊢; omega
        | k + 8, hk => simp at hk
      · rintro ⟨-, h⟩
        refine ⟨_, ⟨?_, ?_, ?_, ?_, ?_, ?_, ?_, ?_⟩, rfl⟩
        · simpa using h 0 s0 rfl
        · simpa using h 1 s1 rfl
        · simpa using h 2 s2 rfl
        · simpa [Nat.one_le_iff_ne_zero] using h 3 s3 rfl
        · simpa using h 4 s4 rfl
        · simpa using h 5 s5 rfl
        · simpa [Nat.one_le_iff_ne_zero] using h 6 s6 rfl
        · simpa using h 7 s7 rfl
    · rw [h8]
      intro hno
      simp only [Strides.ctor, ne_eq, not_true_eq_false, if_false] at hno ⊢
      split_ifs at hno ⊢ <;> first | exact ⟨_, rfl⟩ | exact absurd ⟨_, rfl⟩ hno
  · have : Strides.ctor nHist s s.length = .fail (stridesMsg nHist) := by
      unfold Strides.ctor
      rw [if_pos h8]
    rw [this]
    refine ⟨⟨?_, ?_⟩, fun _ => ⟨_, rfl⟩⟩
    · rintro ⟨_, h⟩; cases h
    · rintro ⟨h, _⟩; exact absurd h h8

/-- the names of the strides in their order (ECMech_const.h:57-64, 89-96) -/
def strideNames : List String := ["istride_def_rate", "istride_spin_v", "istride_vol_ratio", "istride_int_eng",
  "istride_stress", "istride_history", "istride_tkelv", "istride_sdd"]

/-- what the message about a stride should say: its name and the length needed -/
def strideText (name : String) (need : ℕ) : String :=
  "strides[" ++ name ++ "] should have at least a length of: " ++ toString need

/-- **C37.** The message of a rejected list of eight strides gives the length needed by the first stride that is too
    small, and its name, except for the volume ratio. -/
theorem C37_message (nHist : ℕ) (s : List ℕ) (hs : s.length = 8) (msg : String)
    (h : Strides.ctor nHist s 8 = .fail msg) :
    ∃ k v, s[k]? = some v ∧ v < [7, 3, 4, 1, 7, nHist, 1, 2].getD k 0 ∧
      (∀ j < k, ∀ v', s[j]? = some v' → [7, 3, 4, 1, 7, nHist, 1, 2].getD j 0 ≤ v') ∧
      (k ≠ 2 → msg = strideText (strideNames.getD k "") ([7, 3, 4, 1, 7, nHist, 1, 2].getD k 0)) ∧
      (k = 2 → msg = strideText "istride_int_eng" 4) := by
  obtain ⟨s0, s1, s2, s3, s4, s5, s6, s7, rfl⟩ :
      ∃ s0 s1 s2 s3 s4 s5 s6 s7, s = [s0, s1, s2, s3, s4, s5, s6, s7] := by
    rcases s with _ | ⟨s0, _ | ⟨s1, _ | ⟨s2, _ | ⟨s3, _ | ⟨s4, _ | ⟨s5, _ | ⟨s6, _ | ⟨s7, _ | _⟩⟩⟩⟩⟩⟩⟩⟩
    all_goals first | (simp at hs; done) | exact ⟨_, _, _, _, _, _, _, _, rfl⟩
  have lt : ∀ j k, j < k → k ≤ 7 → j = 0 ∨ j = 1 ∨ j = 2 ∨ j = 3 ∨ j = 4 ∨ j = 5 ∨ j = 6 := by omega
  simp only [Strides.ctor, ne_eq, not_true_eq_false, if_false] at h
  split_ifs at h with h0 h1 h2 h3 h4 h5 h6 h7 <;> cases h
  case pos => exact ⟨0, s0, rfl, h0, fun j hj => by omega, fun _ => rfl, fun h => by omega⟩
  case pos =>
    refine ⟨1, s1, rfl, h1, fun j hj v' hv => ?_, fun _ => rfl, fun h => by omega⟩
    obtain rfl : j = 0 := by omega
    simp at hv ⊢; omega
  case pos =>
    refine ⟨2, s2, rfl, h2, fun j hj v' hv => ?_, fun h => absurd rfl h, fun _ => rfl⟩
    rcases lt j _ hj (by omega) with rfl | rfl | rfl | rfl | rfl | rfl | rfl <;> simp at hv ⊢ <;> omega
  case pos =>
    refine ⟨3, s3, rfl, h3, fun j hj v' hv => ?_, fun _ => rfl, fun h => by omega⟩
    rcases lt j _ hj (by omega) with rfl | rfl | rfl | rfl | rfl | rfl | rfl <;> simp at hv ⊢ <;> omega
  case pos =>
    refine ⟨4, s4, rfl, h4, fun j hj v' hv => ?_, fun _ => rfl, fun h => by omega⟩
    rcases lt j _ hj (by omega) with rfl | rfl | rfl | rfl | rfl | rfl | rfl <;> simp at hv ⊢ <;> omega
  case pos =>
    refine ⟨5, s5, rfl, h5, fun j hj v' hv => ?_, fun _ => rfl, fun h => by omega⟩
    rcases lt j _ hj (by omega) with rfl | rfl | rfl | rfl | rfl | rfl | rfl <;> simp at hv ⊢ <;> omega
  case pos =>
    refine ⟨6, s6, rfl, h6, fun j hj v' hv => ?_, fun _ => rfl, fun h => by omega⟩
    rcases lt j _ hj (by omega) with rfl | rfl | rfl | rfl | rfl | rfl | rfl <;> simp at hv ⊢ <;> omega
  case pos =>
    refine ⟨7, s7, rfl, h7, fun j hj v' hv => ?_, fun _ => rfl, fun h => by omega⟩
    rcases lt j _ hj (by omega) with rfl | rfl | rfl | rfl | rfl | rfl | rfl <;> simp at hv ⊢ <;> omega

/-- two strides too small: the first one is named -/
example : Strides.ctor 26 [7, 2, 4, 1, 7, 26, 1, 1] 8
    = .fail "strides[istride_spin_v] should have at least a length of: 3" :=
  congrArg Out.fail (by decide +kernel : strideMsg "istride_spin_v" 3 = _)

/-- **C37 (finding)**: the message names the stride that is too small.  Not for the volume ratio: the strides below are
    the default ones except for the volume ratio, and the message names the internal energy. -/
theorem C37_refuted_message : ¬ ∀ (nHist : ℕ) (s : List ℕ) (msg : String), s.length = 8 →
    Strides.ctor nHist s 8 = .fail msg → ∃ k v, s[k]? = some v ∧ v < [7, 3, 4, 1, 7, nHist, 1, 2].getD k 0 ∧
      msg = strideMsg (strideNames.getD k "") ([7, 3, 4, 1, 7, nHist, 1, 2].getD k 0) := by
  intro h
  obtain ⟨k, v, hv, hk, hm⟩ := h 26 [7, 3, 3, 1, 7, 26, 1, 2] (strideMsg "istride_int_eng" 4) rfl rfl
  match k, hv, hk, hm with
  | 0, hv, hk, _ => simp at hv hk; omega
  | 1, hv, hk, _ => simp at hv hk; omega
  | 2, _, _, hm => exact absurd hm (by decide)
  | 3, hv, hk, _ => simp at hv hk; omega
  | 4, hv, hk, _ => simp at hv hk; omega
  | 5, hv, hk, _ => simp at hv hk; omega
  | 6, hv, hk, _ => simp at hv hk; omega
  | 7, hv, hk, _ => simp at hv hk; omega
  | k + 8, hv, _, _ => simp at hv

/-- **C37.** The strides of the default constructor are accepted by the check, and no accepted strides
    are smaller in any entry. -/
theorem C37_default (nHist : ℕ) :
    Strides.ctor nHist [7, 3, 4, 1, 7, nHist, 1, 2] 8 = .ok (Strides.default nHist) ∧
    (Strides.default nHist).Accepted nHist ∧
    ∀ (s : List ℕ) (st : Strides), Strides.ctor nHist s 8 = .ok st → st.Accepted nHist := by
  refine ⟨(C37_exact ..).2 ⟨by omega, rfl⟩, ⟨le_refl _, le_refl _, le_refl _, le_refl _, le_refl _,
    le_refl _, le_refl _, le_refl _⟩, ?_⟩
  intro s st h
  rcases s with _ | ⟨s0, _ | ⟨s1, _ | ⟨s2, _ | ⟨s3, _ | ⟨s4, _ | ⟨s5, _ | ⟨s6, _ | ⟨s7, rest⟩⟩⟩⟩⟩⟩⟩⟩
  all_goals first | (cases h; done) | skip
  obtain ⟨⟨h0, h1, h2, h3, h4, h5, h6, h7⟩, rfl⟩ := (C37_exact ..).1 h
  exact ⟨h0, h1, h2, h3, h4, h5, h6, h7⟩

/-- **C49, where it holds.** As long as stride times index stays below 2^32 the offset is the product. -/
theorem C49_offset (s i : ℕ) : offU s i = s * i ↔ s * i < 2 ^ 32 := by
  constructor
  · intro h
    rw [← h]
    exact Nat.mod_lt _ (by norm_num)
  · exact offU_eq

/-- **C49 is false.** With the default strides of a model with 26 history variables (12 slip systems,
    one hardness variable), the point with index 165191050 — well within the range of `int` — is
    looked up at offset 4 of the history array instead of 26 times its index: inside the entries of
    point 0. -/
theorem C49_refuted_history :
    (Strides.default (numHist 1 12)).Accepted (numHist 1 12) ∧ (165191050 : ℕ) < 2 ^ 31 ∧
    offU (Strides.default (numHist 1 12)).history 165191050 = 4 ∧
    (Strides.default (numHist 1 12)).history * 165191050 ≠ 4 ∧
    OwnedBy (Strides.default (numHist 1 12)).history (numHist 1 12) 0 4 :=
  ⟨(C37_default _).2.1, by norm_num, by decide, by decide, by
    unfold OwnedBy numHist; omega⟩

/-- **C49 is false** of every stride: whenever the product leaves 32 bits the offset is another one. -/
theorem C49_refuted_every_stride (s i : ℕ) (h : 2 ^ 32 ≤ s * i) : offU s i ≠ s * i := by
  rw [Ne, C49_offset]
  omega

/-- **C49 is false for the tangent.** For a point index of 59652324 or more the int product
    `nsvec2 * i` overflows, whatever the size of the arrays: the call is undefined. -/
theorem C49_refuted_tangent (X : Ext) (M : Material n nH) (st : Strides) (a : BatchIn) (b : BatchMem)
    (t : Buf) (ht : b.mtan = some t) (i : ℕ) (hi : 59652324 ≤ i) :
    ∃ why, batchPoint X M st a i b = .undef why := by
  refine ⟨_, if_neg ?_⟩
  intro h
  have := (h.mtan t ht).1
  omega

/-- two points with padding between them: strides larger than needed -/
def exStrides : Strides where
  defRate := 9
  spin := 3
  volRatio := 5
  intEng := 2
  stress := 7
  history := 30
  tkelv := 1
  sdd := 4

/-- read-only arrays holding twice the data of one point -/
def exBatchIn (inp : Inputs) : BatchIn where
  dt := inp.dt
  tol := inp.tol
  defRate := ⟨16, fun p => if h : p % 9 < 7 then inp.d ⟨p % 9, h⟩ else 99⟩
  spin := ⟨6, fun p => inp.w ⟨p % 3, by omega⟩⟩
  volRatio := ⟨9, fun p => if h : p % 5 < 4 then inp.vr ⟨p % 5, h⟩ else 99⟩

/-- read-write arrays holding twice the data of one point -/
def exBatchMem (m : Mem 1 12) : BatchMem where
  eInt := ⟨3, fun p => if p % 2 = 0 then m.eInt else 99⟩
  stress := ⟨14, fun p => m.stress ⟨p % 7, by omega⟩⟩
  hist := ⟨56, fun p => if h : p % 30 < numHist 1 12 then m.hist ⟨p % 30, h⟩ else 99⟩
  tkelv := ⟨2, fun _ => m.tkelv⟩
  sdd := ⟨6, fun p => if h : p % 4 < 2 then m.sdd ⟨p % 4, h⟩ else 99⟩
  mtan := m.mtan.map fun t => ⟨72, fun p => t ⟨p % 36 / 6, by omega⟩ ⟨p % 6, by omega⟩⟩

theorem ex_pointInp (inp : Inputs) (i : ℕ) : pointInp exStrides (exBatchIn inp) i = inp := by
  cases inp with
  | mk dt tol d w vr =>
  simp only [pointInp, exBatchIn, exStrides, Inputs.mk.injEq, true_and]
  refine ⟨?_, ?_, ?_⟩
  · funext j
    have hj : (9 * i + j.val) % 9 = j.val := by omega
    simp only [slice, hj]
    rw [dif_pos j.isLt]
  · funext j
    have hj : (3 * i + j.val) % 3 = j.val := by omega
    simp only [slice, hj]
  · funext j
    have hj : (5 * i + j.val) % 5 = j.val := by omega
    simp only [slice, hj]
    rw [dif_pos j.isLt]

theorem ex_pointMem (m : Mem 1 12) (i : ℕ) : pointMem exStrides (exBatchMem m) i = m := by
  cases m with
  | mk e s h t sd mt =>
  simp only [pointMem, exBatchMem, exStrides, Mem.mk.injEq, true_and]
  refine ⟨?_, ?_, ?_, ?_, ?_⟩
  · rw [if_pos (by omega)]
  · funext j
    have hj : (7 * i + j.val) % 7 = j.val := by omega
    simp only [slice, hj]
  · funext j
    have hj : (30 * i + j.val) % 30 = j.val := by
      have := j.isLt; unfold numHist at this; omega
    simp only [slice, hj]
    rw [dif_pos j.isLt]
  · funext j
    have hj : (4 * i + j.val) % 4 = j.val := by omega
    simp only [slice, hj]
    rw [dif_pos j.isLt]
  · cases mt with
    | none => rfl
    | some t =>
      refine congrArg some ?_
      funext p q
      have hp : (36 * i + (6 * p.val + q.val)) % 36 / 6 = p.val := by omega
      have hq : (36 * i + (6 * p.val + q.val)) % 6 = q.val := by omega
      simp only [slice, hp, hq]

/-- the hypotheses of C35 and C36 can be met: two copies of the example update with padded strides,
    the second point processed first; the loop succeeds -/
example : exStrides.Accepted (numHist 1 12) ∧
    (∀ i < 2, Holds (numHist 1 12) exStrides (exBatchIn (exInp exEl 0)) (exBatchMem (exMem 0 (some 0))) i) ∧
    (∀ i < 2, NoOverflow exStrides (exBatchMem (exMem 0 (some 0))) i) ∧
    [1, 0].Perm (List.range 2) ∧
    ∃ b', batchLoop exExt (exMat exEl) exStrides (exBatchIn (exInp exEl 0)) [1, 0]
      (exBatchMem (exMem 0 (some 0))) = .ok b' := by
  have hA : exStrides.Accepted (numHist 1 12) := by constructor <;> decide
  have hH : ∀ i < 2, Holds (numHist 1 12) exStrides (exBatchIn (exInp exEl 0))
      (exBatchMem (exMem 0 (some 0))) i := by
    intro i hi
    constructor <;> (try (intro t ht; cases ht)) <;>
      simp only [exStrides, exBatchIn, exBatchMem, numHist] <;> omega
  have hO : ∀ i < 2, NoOverflow exStrides (exBatchMem (exMem 0 (some 0))) i := by
    intro i hi
    refine ⟨?_, fun _ => by omega⟩
    constructor <;> simp only [exStrides] <;> omega
  have hP : [1, 0].Perm (List.range 2) := by decide
  refine ⟨hA, hH, hO, hP, ?_⟩
  rw [(C35_independent exExt (exMat exEl) exStrides _ _ 2 hA hH hO _ hP).1]
  obtain ⟨m', hm'⟩ := ex_ok exEl exEl_pos 0 (some 0)
  intro i hi
  refine ⟨m', ?_⟩
  rw [ex_pointInp, ex_pointMem]
  exact hm'

/-- eight strides that are accepted although two are larger than needed -/
example : Strides.ctor 26 [8, 3, 4, 1, 7, 40, 1, 2] 8 = .ok ⟨8, 3, 4, 1, 7, 40, 1, 2⟩ :=
  (C37_exact ..).2 ⟨by omega, rfl⟩

end Ecm.Props
