/- Property theorems C104: the execution strategies of the batch update (src/ecmech/ECMech_evptnWrap.h:286-388). -/
import Verif.Model.DeviceBatch
import Verif.Props.Batch
import Verif.Props.Device

namespace Ecm.Props
open Ecm Spec Classical

variable {n nH : ℕ}

theorem getResponseSnglDev_mtan {X : DevExt} {M : DevMaterial n nH} {inp : Inputs} {m : Mem nH n}
    {r : Mem nH n × List String} (h : getResponseSnglDev X M inp m = .ok r) :
    r.1.mtan.isSome = m.mtan.isSome := by
  unfold getResponseSnglDev at h
  cases h1 : Step.setupDev M inp m with
  | undef w => simp [h1, Out.bind] at h
  | fail s => simp [h1, Out.bind] at h
  | ok a =>
    simp only [h1, Out.bind, Out.ok.injEq] at h
    subst h
    show (Step.tangentDev _ _ _ _ _).1.isSome = _
    unfold Step.tangentDev
    cases hm : m.mtan.isSome <;> simp

/-- what the device loop does, point by point -/
theorem batchLoopDev_spec {X : DevExt} {M : DevMaterial n nH} {st : Strides} {a : BatchIn}
    (hA : st.Accepted (numHist nH n)) (l : List ℕ) : ∀ (b : BatchMem), l.Nodup →
    (∀ i ∈ l, st.NoWrap i) → (∀ i ∈ l, Safe (numHist nH n) st a b i) →
    match batchLoopDev X M st a l b with
    | .ok q => ∃ r : ℕ → Mem nH n × List String,
        (∀ i ∈ l, getResponseSnglDev X M (batchInp st a i) (batchMem st b i) = .ok (r i)) ∧
        q.1 = l.foldl (fun c i => c.store st i (r i).1) b ∧ q.2 = l.flatMap fun i => (r i).2
    | .fail s => ∃ i ∈ l, getResponseSnglDev X M (batchInp st a i) (batchMem st b i) = .fail s
    | .undef w => ∃ i ∈ l, getResponseSnglDev X M (batchInp st a i) (batchMem st b i) = .undef w := by
  induction l with
  | nil => intro b _ _ _; exact ⟨fun i => (batchMem st b i, []), by simp, rfl, rfl⟩
  | cons i l ih =>
    intro b hnd hW hS
    simp only [batchLoopDev, batchPointDev]
    rw [if_pos (hS i (by simp))]
    cases hr : getResponseSnglDev X M (batchInp st a i) (batchMem st b i) with
    | undef w => exact ⟨i, by simp, hr⟩
    | fail s => exact ⟨i, by simp, hr⟩
    | ok r0 =>
      have hni : i ∉ l := (List.nodup_cons.1 hnd).1
      have hview : ∀ j ∈ l, (batchMem st (b.store st i r0.1) j : Mem nH n) = batchMem st b j := by
        intro j hj
        exact batchMem_store_diff hA (hW i (by simp)) (hW j (by simp [hj]))
          (fun h => hni (h ▸ hj))
      have := ih (b.store st i r0.1) (List.nodup_cons.1 hnd).2 (fun j hj => hW j (by simp [hj]))
        (fun j hj => (hS j (by simp [hj])).store r0.1)
      simp only [Out.bind]
      cases hl : batchLoopDev X M st a l (b.store st i r0.1) with
      | undef w =>
        rw [hl] at this
        obtain ⟨j, hj, h⟩ := this
        rw [hview j hj] at h
        exact ⟨j, by simp [hj], h⟩
      | fail s =>
        rw [hl] at this
        obtain ⟨j, hj, h⟩ := this
        rw [hview j hj] at h
        exact ⟨j, by simp [hj], h⟩
      | ok q =>
        rw [hl] at this
        obtain ⟨rr, h1, h2, h3⟩ := this
        have hne : ∀ k ∈ l, k ≠ i := fun k hk h => hni (h ▸ hk)
        refine ⟨Function.update rr i r0, ?_, ?_, ?_⟩
        · intro k hk
          rcases List.mem_cons.1 hk with rfl | hk
          · rw [hr]; simp
          · rw [Function.update_of_ne (hne k hk), ← h1 k hk, hview k hk]
        · rw [List.foldl_cons]
          simp only [Function.update_self]
          rw [h2]
          refine List.foldl_ext _ _ _ ?_
          intro c k hk
          rw [Function.update_of_ne (hne k hk)]
        · have e : (l.flatMap fun k => (Function.update rr i r0 k).2) = l.flatMap fun k => (rr k).2 := by
            rw [List.flatMap_def, List.flatMap_def]
            refine congrArg _ (List.map_congr_left fun k hk => ?_)
            rw [Function.update_of_ne (hne k hk)]
          rw [List.flatMap_cons, Function.update_self, e, ← h3]

/-- the conditions on a batch: accepted strides, arrays long enough, no index overflow, and `order` names every point
    once -/
structure BatchOk (n nH : ℕ) (st : Strides) (a : BatchIn) (b : BatchMem) (N : ℕ) (order : List ℕ) : Prop where
  accepted : st.Accepted (numHist nH n)
  holds : ∀ i < N, Holds (numHist nH n) st a b i
  noOverflow : ∀ i < N, NoOverflow st b i
  perm : order.Perm (List.range N)

/-- **C104, device.** If the device update of every point is defined, the call returns, whatever the updates of the points
    say: every point holds the result of its own device update, what is printed are the messages of the points, and a
    point without messages is one whose update succeeds on the host, and holds the result of the host. -/
theorem C104_gpu (B : Built) (X : DevExt) (M : DevMaterial n nH) (hK : DevAgrees M.kin) (st : Strides) (a : BatchIn)
    (N : ℕ) (order : List ℕ) (b : BatchMem) (hB : B.gpu = true) (hb : BatchOk n nH st a b N order)
    (r : ℕ → Mem nH n × List String)
    (hr : ∀ i < N, getResponseSnglDev X M (pointInp st a i) (pointMem st b i) = .ok (r i)) :
    ∃ b', getResponseStrat B .gpu X M st true a N order b = .returned b' (order.flatMap fun i => (r i).2) ∧
      (∀ i < N, pointMem st b' i = (r i).1) ∧
      (∀ i < N, ((r i).2 = [] ↔
        ∃ m', getResponseSngl X.host M.host (pointInp st a i) (pointMem st b i) = .ok m')) ∧
      (∀ i < N, (r i).2 = [] →
        getResponseSngl X.host M.host (pointInp st a i) (pointMem st b i) = .ok (pointMem st b' i)) := by
  have hmem : ∀ i, i ∈ order ↔ i < N := fun i => by rw [hb.perm.mem_iff]; simp
  have hnd : order.Nodup := hb.perm.nodup_iff.2 List.nodup_range
  have hW : ∀ i ∈ order, st.NoWrap i := fun i hi => (hb.noOverflow i ((hmem i).1 hi)).1
  have hS : ∀ i ∈ order, Safe (numHist nH n) st a b i := fun i hi =>
    safe_of (hb.holds i ((hmem i).1 hi)) (hb.noOverflow i ((hmem i).1 hi))
  have hspec := batchLoopDev_spec (X := X) (M := M) (a := a) hb.accepted order b hnd hW hS
  have hpt : ∀ i < N, getResponseSnglDev X M (batchInp st a i) (batchMem st b i) = .ok (r i) := by
    intro i hi
    rw [batchInp_eq (hb.noOverflow i hi).1, batchMem_eq (hb.noOverflow i hi).1]
    exact hr i hi
  cases hl : batchLoopDev X M st a order b with
  | undef w =>
    rw [hl] at hspec
    obtain ⟨i, hi, h⟩ := hspec
    rw [hpt i ((hmem i).1 hi)] at h
    cases h
  | fail s =>
    rw [hl] at hspec
    obtain ⟨i, hi, h⟩ := hspec
    rw [hpt i ((hmem i).1 hi)] at h
    cases h
  | ok q =>
    rw [hl] at hspec
    obtain ⟨r', h1, h2, h3⟩ := hspec
    have he : ∀ i ∈ order, r' i = r i := fun i hi => by
      have := h1 i hi
      rw [hpt i ((hmem i).1 hi)] at this
      exact (Out.ok.inj this).symm
    have hp : ∀ i < N, (pointMem st q.1 i : Mem nH n) = (r i).1 := by
      intro i hi
      rw [← he i ((hmem i).2 hi), ← batchMem_eq (hb.noOverflow i hi).1, h2]
      refine foldl_view_in (m := fun i => (r' i).1) hb.accepted order b hnd hW ((hmem i).2 hi) ?_
      rw [getResponseSnglDev_mtan (h1 i ((hmem i).2 hi))]
      simp [batchMem]
    have hq : ∀ i < N, ((r i).2 = [] ↔
        ∃ m', getResponseSngl X.host M.host (pointInp st a i) (pointMem st b i) = .ok m') := by
      intro i hi
      constructor
      · intro h
        refine ⟨(r i).1, (C67_quiet X M hK _ _ _).1 ?_⟩
        rw [hr i hi, ← h]
      · rintro ⟨m', hm'⟩
        have := (C67_quiet X M hK _ _ _).2 hm'
        rw [hr i hi] at this
        rw [Out.ok.inj this]
    refine ⟨q.1, ?_, hp, hq, ?_⟩
    · unfold getResponseStrat
      rw [if_pos rfl]
      simp only [Built.actual, hB, if_true, hl]
      rw [h3]
      congr 1
      rw [List.flatMap_def, List.flatMap_def]
      exact congrArg _ (List.map_congr_left fun k hk => by rw [he k hk])
    · intro i hi h
      rw [hp i hi]
      refine (C67_quiet X M hK _ _ _).1 ?_
      rw [hr i hi, ← h]

/-- **C104, all strategies.** If the update of every point succeeds on the host, the call returns without printing, with
    the same arrays, for every strategy, every build and every order of the points. -/
theorem C104_same (X : DevExt) (M : DevMaterial n nH) (hK : DevAgrees M.kin) (st : Strides) (a : BatchIn)
    (N : ℕ) (b : BatchMem) (order0 : List ℕ) (hb : BatchOk n nH st a b N order0)
    (hr : ∀ i < N, ∃ m', getResponseSngl X.host M.host (pointInp st a i) (pointMem st b i) = .ok m') :
    ∃ b', ∀ (B : Built) (s : Strategy) (order : List ℕ), order.Perm (List.range N) →
      getResponseStrat B s X M st true a N order b = .returned b' [] := by
  obtain ⟨b', hb'⟩ := (C35_independent X.host M.host st a b N hb.accepted hb.holds hb.noOverflow (List.range N)
    (List.Perm.refl _)).1.2 hr
  have hcpu : ∀ order : List ℕ, order.Perm (List.range N) → batchLoop X.host M.host st a order b = .ok b' :=
    fun order ho => C35_order X.host M.host st a b N hb.accepted hb.holds hb.noOverflow _ _ (List.Perm.refl _) ho b' hb'
  have hgpu : ∀ order : List ℕ, order.Perm (List.range N) → batchLoopDev X M st a order b = .ok (b', []) := by
    intro order ho
    have hmem : ∀ i, i ∈ order ↔ i < N := fun i => by rw [ho.mem_iff]; simp
    have hnd : order.Nodup := ho.nodup_iff.2 List.nodup_range
    have hW : ∀ i ∈ order, st.NoWrap i := fun i hi => (hb.noOverflow i ((hmem i).1 hi)).1
    have hS : ∀ i ∈ order, Safe (numHist nH n) st a b i := fun i hi =>
      safe_of (hb.holds i ((hmem i).1 hi)) (hb.noOverflow i ((hmem i).1 hi))
    have hspec := batchLoopDev_spec (X := X) (M := M) (a := a) hb.accepted order b hnd hW hS
    have hspec2 := batchLoop_spec (X := X.host) (M := M.host) (a := a) hb.accepted order b hnd hW hS
    rw [hcpu order ho] at hspec2
    obtain ⟨m, k1, k2⟩ := hspec2
    have hd : ∀ i ∈ order, getResponseSnglDev X M (batchInp st a i) (batchMem st b i) = .ok (m i, []) :=
      fun i hi => (C67_quiet X M hK _ _ _).2 (k1 i hi)
    cases hl : batchLoopDev X M st a order b with
    | undef w =>
      rw [hl] at hspec
      obtain ⟨i, hi, h⟩ := hspec
      rw [hd i hi] at h
      cases h
    | fail s =>
      rw [hl] at hspec
      obtain ⟨i, hi, h⟩ := hspec
      rw [hd i hi] at h
      cases h
    | ok q =>
      rw [hl] at hspec
      obtain ⟨r', h1, h2, h3⟩ := hspec
      have he : ∀ i ∈ order, r' i = (m i, []) := fun i hi => by
        have := h1 i hi
        rw [hd i hi] at this
        exact (Out.ok.inj this).symm
      have e1 : q.1 = b' := by
        rw [h2, k2]
        refine List.foldl_ext _ _ _ ?_
        intro c k hk
        rw [he k hk]
      have e2 : q.2 = [] := by
        rw [h3, List.flatMap_eq_nil_iff]
        intro k hk
        rw [he k hk]
      rw [← e1, ← e2]
  refine ⟨b', fun B s order ho => ?_⟩
  unfold getResponseStrat
  rw [if_pos rfl]
  cases hs : B.actual s with
  | cpu => simp only [hb']
  | openmp => simp only [hcpu order ho]
  | gpu => simp only [hgpu order ho]

/-- **C104, sequential.** The call throws exactly the message of the first point whose update fails, with the points
    before it updated and those after it untouched. -/
theorem C104_cpu (B : Built) (X : DevExt) (M : DevMaterial n nH) (st : Strides) (a : BatchIn)
    (N : ℕ) (order : List ℕ) (b b' : BatchMem) (msg : String) (hb : BatchOk n nH st a b N order)
    (h : getResponseStrat B .cpu X M st true a N order b = .thrown msg b') :
    ∃ i < N, getResponseSngl X.host M.host (pointInp st a i) (pointMem st b i) = .fail msg (pointMem st b' i) ∧
      (∀ j < i, getResponseSngl X.host M.host (pointInp st a j) (pointMem st b j) = .ok (pointMem st b' j)) ∧
      (∀ j, i < j → j < N → (pointMem st b' j : Mem nH n) = pointMem st b j) := by
  unfold getResponseStrat at h
  rw [if_pos rfl] at h
  simp only [Built.actual] at h
  cases hl : batchLoop X.host M.host st a (List.range N) b with
  | ok c => rw [hl] at h; cases h
  | undef w => rw [hl] at h; cases h
  | fail s c =>
    rw [hl] at h
    cases h
    obtain ⟨l1, i, l2, e, h1, h2, h3⟩ := C35_failure X.host M.host st a b N hb.accepted hb.holds hb.noOverflow
      (List.range N) (List.Perm.refl _) msg b' hl
    have hlen : l1.length + (l2.length + 1) = N := by
      have := congrArg List.length e
      simpa using this.symm
    have hget : ∀ k < N, (l1 ++ i :: l2)[k]? = some k := by
      intro k hk
      rw [← e, List.getElem?_range hk]
    have hi : i = l1.length := by
      have := hget l1.length (by omega)
      simpa using this
    refine ⟨i, by omega, h1, fun j hj => h2 j ?_, fun j hj hjN => h3 j ?_⟩
    · have := hget j (by omega)
      rw [List.getElem?_append_left (by omega)] at this
      exact List.mem_of_getElem? this
    · have := hget j hjN
      rw [List.getElem?_append_right (by omega)] at this
      obtain ⟨d, hd⟩ : ∃ d, j - l1.length = d + 1 := ⟨j - l1.length - 1, by omega⟩
      rw [hd, List.getElem?_cons_succ] at this
      exact List.mem_of_getElem? this

/-- **C104 is false with OpenMP**: as soon as the update of one point fails, the behaviour of the call is not defined,
    whatever the order. -/
theorem C104_refuted_openmp (B : Built) (X : DevExt) (M : DevMaterial n nH) (st : Strides) (a : BatchIn)
    (N : ℕ) (order : List ℕ) (b : BatchMem) (hB : B.openmp = true) (hb : BatchOk n nH st a b N order)
    (i : ℕ) (hi : i < N) (msg : String) (m' : Mem nH n)
    (h : getResponseSngl X.host M.host (pointInp st a i) (pointMem st b i) = .fail msg m') :
    ∃ why, getResponseStrat B .openmp X M st true a N order b = .undef why := by
  unfold getResponseStrat
  rw [if_pos rfl]
  simp only [Built.actual, hB, if_true]
  cases hl : batchLoop X.host M.host st a order b with
  | ok c =>
    have := (C35_independent X.host M.host st a b N hb.accepted hb.holds hb.noOverflow order hb.perm).2 c hl i hi
    rw [h] at this
    cases this
  | fail s c => exact ⟨_, rfl⟩
  | undef w => exact ⟨_, rfl⟩

/-- **C104.** Before `complete` every call throws, with every strategy, and changes nothing. -/
theorem C104_incomplete (B : Built) (s : Strategy) (X : DevExt) (M : DevMaterial n nH) (st : Strides) (a : BatchIn)
    (N : ℕ) (order : List ℕ) (b : BatchMem) :
    getResponseStrat B s X M st false a N order b = .thrown "not complete" b := rfl

/-- **C104.** A strategy the library was not built for is replaced by the sequential loop. -/
theorem C104_fallback (B : Built) (X : DevExt) (M : DevMaterial n nH) (st : Strides) (complete : Bool) (a : BatchIn)
    (N : ℕ) (order : List ℕ) (b : BatchMem) (s : Strategy)
    (hs : s = .openmp ∧ B.openmp = false ∨ s = .gpu ∧ B.gpu = false) :
    getResponseStrat B s X M st complete a N order b = getResponseStrat B .cpu X M st complete a N order b := by
  unfold getResponseStrat
  rcases hs with ⟨rfl, h⟩ | ⟨rfl, h⟩ <;> simp [Built.actual, h]

/-- the arrays of `exBatchIn` with another spin for the first point -/
def exBatchIn2 (inp : Inputs) (w : Vec 3) : BatchIn :=
  { exBatchIn inp with spin := ⟨6, fun p => if p < 3 then w ⟨p % 3, by omega⟩ else inp.w ⟨p % 3, by omega⟩⟩ }

theorem ex_pointInp2 (inp : Inputs) (w : Vec 3) :
    pointInp exStrides (exBatchIn2 inp w) 0 = { inp with w := w } ∧
      pointInp exStrides (exBatchIn2 inp w) 1 = inp := by
  have h0 := ex_pointInp inp 0
  have h1 := ex_pointInp inp 1
  constructor
  · refine Eq.trans ?_ (congrArg (fun x : Inputs => { x with w := w }) h0)
    simp only [pointInp, exBatchIn2, exBatchIn, exStrides, Inputs.mk.injEq, true_and, and_true]
    funext j
    simp only [slice, Nat.mul_zero, Nat.zero_add]
    rw [if_pos j.isLt]
    congr 1
    ext
    exact Nat.mod_eq_of_lt j.isLt
  · refine Eq.trans ?_ h1
    simp only [pointInp, exBatchIn2, exBatchIn, exStrides, Inputs.mk.injEq, true_and, and_true]
    funext j
    simp only [slice]
    rw [if_neg (by omega)]

/-- **C104 is false of the strategies alike**: a batch of two points, the first of which does not converge.  Sequentially
    the call throws and the second point is not touched; with OpenMP the behaviour is not defined; on a device the call
    returns, a message is printed, and the second point is updated.  A caller who does not read the output takes the
    arrays of the device for results. -/
theorem C104_refuted : ∃ (X : DevExt) (M : DevMaterial 12 1) (st : Strides) (a : BatchIn) (b : BatchMem),
    X.solver.Sound ∧ DevAgrees M.kin ∧ BatchOk 12 1 st a b 2 [0, 1] ∧
    (∃ msg b', getResponseStrat ⟨true, true⟩ .cpu X M st true a 2 [0, 1] b = .thrown msg b' ∧
      (pointMem st b' 1 : Mem 1 12) = pointMem st b 1) ∧
    (∃ why, getResponseStrat ⟨true, true⟩ .openmp X M st true a 2 [0, 1] b = .undef why) ∧
    ∃ b' msgs, getResponseStrat ⟨true, true⟩ .gpu X M st true a 2 [0, 1] b = .returned b' msgs ∧ msgs ≠ [] ∧
      getResponseSngl X.host M.host (pointInp st a 1) (pointMem st b 1) = .ok (pointMem st b' 1) := by
  obtain ⟨X, M, inp, inp2, m, m', msgs, hX, hK, hm, h1, hi, -, h2⟩ := C67_refuted
  set a := exBatchIn2 inp2 inp.w with ha
  set b := exBatchMem m with hbb
  have hp0 : pointInp exStrides a 0 = inp := ((ex_pointInp2 inp2 inp.w).1).trans hi.symm
  have hp1 : pointInp exStrides a 1 = inp2 := (ex_pointInp2 inp2 inp.w).2
  have hb : BatchOk 12 1 exStrides a b 2 [0, 1] := by
    refine ⟨by constructor <;> decide, ?_, ?_, by decide⟩
    · intro i hi
      constructor
      all_goals try (simp only [ha, hbb, exStrides, exBatchIn2, exBatchIn, exBatchMem, numHist]; omega)
      intro t ht
      simp only [hbb, exBatchMem, Option.map_eq_some_iff] at ht
      obtain ⟨_, _, rfl⟩ := ht
      simp only
      omega
    · intro i hi
      refine ⟨?_, fun _ => by omega⟩
      constructor <;> simp only [exStrides] <;> omega
  have hd0 : getResponseSnglDev X M (pointInp exStrides a 0) (pointMem exStrides b 0) = .ok (m', msgs) := by
    rw [hp0, hbb, ex_pointMem]; exact h1
  have hd1 : getResponseSnglDev X M (pointInp exStrides a 1) (pointMem exStrides b 1) = .ok (m', []) := by
    rw [hp1, hbb, ex_pointMem]; exact h2
  obtain ⟨s, mf, hf⟩ := C67_loud X M hK _ _ _ _ hm hd0
  refine ⟨X, M, exStrides, a, b, hX, hK, hb, ?_, ?_, ?_⟩
  · have hS : Safe (numHist 1 12) exStrides a b 0 := safe_of (hb.holds 0 (by omega)) (hb.noOverflow 0 (by omega))
    have hl : batchLoop X.host M.host exStrides a (List.range 2) b = .fail s (b.store exStrides 0 mf) := by
      show batchLoop X.host M.host exStrides a [0, 1] b = _
      simp only [batchLoop, batchPoint]
      rw [if_pos hS, batchInp_eq (hb.noOverflow 0 (by omega)).1, batchMem_eq (hb.noOverflow 0 (by omega)).1, hf]
    have ht : getResponseStrat ⟨true, true⟩ .cpu X M exStrides true a 2 [0, 1] b
        = .thrown s (b.store exStrides 0 mf) := by
      unfold getResponseStrat
      rw [if_pos rfl]
      simp only [Built.actual, hl]
    refine ⟨s, _, ht, ?_⟩
    obtain ⟨i, hi2, k1, k2, k3⟩ := C104_cpu _ X M _ a 2 _ b _ s hb ht
    have hi0 : i = 0 := by
      by_contra hne
      have := k2 0 (by omega)
      rw [hf] at this
      cases this
    subst hi0
    exact k3 1 (by omega) (by omega)
  · exact C104_refuted_openmp _ X M _ a 2 _ b rfl hb 0 (by omega) s mf hf
  · obtain ⟨b', e1, e2, e3, e4⟩ := C104_gpu ⟨true, true⟩ X M hK exStrides a 2 [0, 1] b rfl hb
      (fun i => if i = 0 then (m', msgs) else (m', [])) (by
        intro i hi
        rcases (by omega : i = 0 ∨ i = 1) with rfl | rfl
        · exact hd0
        · exact hd1)
    refine ⟨b', _, e1, ?_, ?_⟩
    · simpa using hm
    · exact e4 1 (by omega) rfl

/-- the hypotheses of `C104_same` are met by two copies of the example update -/
example : ∃ (order : List ℕ), BatchOk 12 1 exStrides (exBatchIn (exInp exEl 0)) (exBatchMem (exMem 0 (some 0))) 2 order ∧
    DevAgrees exDev.kin ∧ ∀ i < 2, ∃ m', getResponseSngl exDevExt.host exDev.host
      (pointInp exStrides (exBatchIn (exInp exEl 0)) i) (pointMem exStrides (exBatchMem (exMem 0 (some 0))) i) = .ok m' := by
  refine ⟨[1, 0], ⟨by constructor <;> decide, ?_, ?_, by decide⟩, C67_voce _ _ _, ?_⟩
  · intro i hi
    constructor <;> (try (intro t ht; cases ht)) <;>
      simp only [exStrides, exBatchIn, exBatchMem, numHist] <;> omega
  · intro i hi
    refine ⟨?_, fun _ => by omega⟩
    constructor <;> simp only [exStrides] <;> omega
  · obtain ⟨m', hm'⟩ := ex_ok exEl exEl_pos 0 (some 0)
    intro i hi
    refine ⟨m', ?_⟩
    rw [ex_pointInp, ex_pointMem, exDevExt_host, exDev_host]
    exact hm'

end Ecm.Props
