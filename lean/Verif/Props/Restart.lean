/-
  C108: what the description of the history says is needed to continue a run is what the update reads.
  Every model object describes its history entry by entry, with a flag for the entries that belong to the
  state (ECMech_evptnWrap.h:222-270); the two without the flag are the flow strength and the number of
  evaluations.
-/
import Verif.Props.Wrap
import Verif.Lemmas.Restart
import Verif.Props.Response

namespace Ecm.Props
open Ecm Spec Classical

/-- two memories hold the same state: energy, stress, whether a tangent is asked for, and the history
    entries that carry the state flag.  Temperature, moduli and the tangent itself may differ, and so may
    the other history entries. -/
structure FlaggedSame {nH n : ℕ} (d : List HistEntry) (a b : Mem nH n) : Prop where
  eInt : a.eInt = b.eInt
  stress : a.stress = b.stress
  want : a.mtan.isSome = b.mtan.isSome
  hist : ∀ i, (entry d i.val).state = true → a.hist i = b.hist i

/-- the outcomes of two updates are the same: the same result on success, the same message and the same
    state on failure -/
def SameOutcome {nH n : ℕ} (d : List HistEntry) : Res (Mem nH n) → Res (Mem nH n) → Prop
  | .ok a, .ok b => a = b
  | .fail s a, .fail t b => s = t ∧ FlaggedSame d a b
  | .undef v, .undef w => v = w
  | _, _ => False

/-- what a restart file made from the flags gives back: the flagged entries as they were, all other
    entries at their described initial values, outputs reset -/
noncomputable def restored {nH n : ℕ} (d : List HistEntry) (m : Mem nH n) : Mem nH n where
  eInt := m.eInt
  stress := m.stress
  hist := fun i => if (entry d i.val).state = true then m.hist i else (entry d i.val).init
  tkelv := 0
  sdd := 0
  mtan := m.mtan.map fun _ => 0

/-- a run: one update after the other, stopping at the first that does not succeed -/
noncomputable def runSteps {n nH : ℕ} (X : Ext) (M : Material n nH) : List Inputs → Mem nH n → Res (Mem nH n)
  | [], m => .ok m
  | inp :: l, m =>
    match getResponseSngl X M inp m with
    | .ok m' => runSteps X M l m'
    | .fail s m' => .fail s m'
    | .undef w => .undef w

theorem described {c : Case} {S : Solver 1} {m : MM c.type} {opts : List ℤ} {pars : List ℝ}
    {strs : List String} (h : (m.initFromParams S opts pars strs).2 = .ok ()) {d : List HistEntry}
    (hd : (m.initFromParams S opts pars strs).1.getHistInfo = .ok d) :
    ∃ info : List HistEntry, d = histDesc info c.type.nslip ∧ info.length = c.type.nH := by
  obtain ⟨rfl, hs, rho0, cvav, tol, gamma, ec0, gl, el, kl, rfl, hg, he, hk, g, e, k, info, hG, hE, hK,
    hB, hI⟩ := init_ok_inv S m opts pars strs h
  rw [init_ok S m rho0 cvav tol gamma ec0 gl el kl strs hg he hk hs hG hE hK hB hI] at hd
  refine ⟨info, ?_, hI⟩
  unfold MM.getHistInfo at hd
  split_ifs at hd
  cases hd; rfl

theorem case_nH (c : Case) : c.type.nH = 1 := by cases c <;> rfl

/-- C108: after a successful initialisation every entry can be plotted, and every entry belongs to the
    state but the third and fourth, which are the flow strength and the number of evaluations -/
theorem C108_flags (c : Case) (S : Solver 1) (m : MM c.type) (opts : List ℤ) (pars : List ℝ)
    (strs : List String) (h : (m.initFromParams S opts pars strs).2 = .ok ()) (d : List HistEntry)
    (hd : (m.initFromParams S opts pars strs).1.getHistInfo = .ok d) (i : ℕ)
    (hi : i < numHist c.type.nH c.type.nslip) :
    (entry d i).plot = true ∧ ((entry d i).state = true ↔ i ≠ 2 ∧ i ≠ 3) ∧
      ((entry d i).state = false ↔ (entry d i).name = "flow_str" ∨ (entry d i).name = "n_feval") := by
  have h13 := C41_hardness c S m opts pars strs h d hd
  obtain ⟨info, rfl, hI⟩ := described h hd
  have hn := case_nH c
  obtain ⟨h0, h1, h2, h3⟩ := histDesc_head info c.type.nslip ⟨"", 0, false, false⟩
  have key : ∀ (a x y : String), a.toList.head? ≠ x.toList.head? → a ++ y ≠ x ∨ a = "" := by
    intro a x y hne
    by_cases ha : a = ""
    · exact Or.inr ha
    · refine Or.inl fun hc => hne ?_
      have : (a ++ y).toList.head? = x.toList.head? := by rw [hc]
      rw [String.toList_append] at this
      have hal : a.toList ≠ [] := fun hh => ha (String.toList_eq_nil_iff.1 hh)
      rwa [List.head?_append_of_ne_nil _ hal] at this
  unfold numHist at hi
  rcases Nat.lt_or_ge i 4 with h4 | h4
  · interval_cases i
    · rw [entry, h0]; simp
    · rw [entry, h1]; simp
    · rw [entry, h2]; simp
    · rw [entry, h3]; simp
  rcases Nat.lt_or_ge i 9 with h9 | h9
  · obtain ⟨j, rfl⟩ := Nat.exists_eq_add_of_le h4
    have e := histDesc_e info c.type.nslip ⟨"", 0, false, false⟩ j (by omega)
    have k1 := key "t" "flow_str" (toString (j + 1)) (by decide)
    have k2 := key "t" "n_feval" (toString (j + 1)) (by decide)
    simp only [show ("t" : String) ≠ "" by decide, or_false] at k1 k2
    rw [entry, e]
    exact ⟨rfl, by simp; omega, ⟨fun hc => (by cases hc), fun hc => hc.elim (fun q => absurd q k1) fun q => absurd q k2⟩⟩
  rcases Nat.lt_or_ge i 13 with h13' | h13'
  · obtain ⟨j, rfl⟩ := Nat.exists_eq_add_of_le h9
    have e := histDesc_q info c.type.nslip ⟨"", 0, false, false⟩ j (by omega)
    have k1 := key "quat_" "flow_str" (toString (j + 1)) (by decide)
    have k2 := key "quat_" "n_feval" (toString (j + 1)) (by decide)
    simp only [show ("quat_" : String) ≠ "" by decide, or_false] at k1 k2
    rw [entry, e]
    exact ⟨rfl, by simp; omega, ⟨fun hc => (by cases hc), fun hc => hc.elim (fun q => absurd q k1) fun q => absurd q k2⟩⟩
  rcases Nat.lt_or_ge i 14 with h14 | h14
  · have : i = 13 := by omega
    subst this
    rw [h13]
    refine ⟨rfl, by simp, ?_⟩
    cases c <;> simp [hardnessName]
  · obtain ⟨j, rfl⟩ := Nat.exists_eq_add_of_le h14
    have e := histDesc_gdot info c.type.nslip ⟨"", 0, false, false⟩ j (by omega)
    rw [hI, hn] at e
    have k1 := key "shrate_" "flow_str" (toString (j + 1)) (by decide)
    have k2 := key "shrate_" "n_feval" (toString (j + 1)) (by decide)
    simp only [show ("shrate_" : String) ≠ "" by decide, or_false] at k1 k2
    rw [entry, e]
    exact ⟨rfl, by simp; omega, ⟨fun hc => (by cases hc), fun hc => hc.elim (fun q => absurd q k1) fun q => absurd q k2⟩⟩

/-- two memories with the same state are read alike -/
theorem sameRead_of_state {c : Case} {S : Solver 1} {m : MM c.type} {opts : List ℤ} {pars : List ℝ}
    {strs : List String} (h : (m.initFromParams S opts pars strs).2 = .ok ()) {d : List HistEntry}
    (hd : (m.initFromParams S opts pars strs).1.getHistInfo = .ok d)
    {a b : Mem c.type.nH c.type.nslip} (hab : FlaggedSame d a b) :
    SameRead a b ∧ (Hist.ofArray a.hist).shrEff = (Hist.ofArray b.hist).shrEff := by
  have hf : ∀ i : Fin (numHist c.type.nH c.type.nslip), i.val ≠ 2 → i.val ≠ 3 → a.hist i = b.hist i :=
    fun i h2 h3 => hab.hist i ((C108_flags c S m opts pars strs h d hd i.val i.2).2.1.2 ⟨h2, h3⟩)
  refine ⟨⟨hab.eInt, hab.stress, hab.want, ?_, ?_, ?_, ?_⟩, hf _ (by simp) (by simp)⟩
  · funext i; exact hf _ (by simp; omega) (by simp; omega)
  · funext i; exact hf _ (by simp; omega) (by simp; omega)
  · funext i; exact hf _ (by simp; omega) (by simp; omega)
  · funext i; exact hf _ (by simp; omega) (by simp; omega)

/-- C108: the flagged entries are all that an update needs: from two memories with the same state it
    succeeds with the same result in every variable, or fails with the same message leaving the same
    state, or is undefined for the same reason -/
theorem C108_restart (c : Case) (S : Solver 1) (m : MM c.type) (opts : List ℤ) (pars : List ℝ)
    (strs : List String) (h : (m.initFromParams S opts pars strs).2 = .ok ()) (d : List HistEntry)
    (hd : (m.initFromParams S opts pars strs).1.getHistInfo = .ok d) (X : Ext)
    (M : Material c.type.nslip c.type.nH) (inp : Inputs) (a b : Mem c.type.nH c.type.nslip)
    (hab : FlaggedSame d a b) :
    SameOutcome d (getResponseSngl X M inp a) (getResponseSngl X M inp b) := by
  obtain ⟨hr, hs⟩ := sameRead_of_state h hd hab
  have h0 : ∀ r : Mem c.type.nH c.type.nslip, r.shift 0 = r := fun r => by
    unfold Mem.shift; simp
  rcases update_shift X M inp hr 0 (by rw [hs, add_zero]) with ⟨r, ha, hb⟩ | ⟨t, r, ha, hb⟩ |
    ⟨t, v, ha, hb⟩ | ⟨w, ha, hb⟩
  · rw [ha, hb]; exact (h0 r).symm
  · rw [ha, hb, h0]; exact ⟨rfl, rfl, rfl, rfl, fun _ _ => rfl⟩
  · rw [ha, hb]; exact ⟨rfl, hab.eInt, hab.stress, hab.want, hab.hist⟩
  · rw [ha, hb]; exact rfl

/-- what is given back after a restart holds the same state -/
theorem restored_same {nH n : ℕ} (d : List HistEntry) (m : Mem nH n) : FlaggedSame d m (restored d m) :=
  ⟨rfl, rfl, by simp [restored], fun i hi => by simp [restored, hi]⟩

/-- C108: a run can be stopped at any point and continued from the flagged entries: after at least one
    further step the continued run has the same values in every variable as the run that was not stopped -/
theorem C108_history (c : Case) (S : Solver 1) (m : MM c.type) (opts : List ℤ) (pars : List ℝ)
    (strs : List String) (h : (m.initFromParams S opts pars strs).2 = .ok ()) (d : List HistEntry)
    (hd : (m.initFromParams S opts pars strs).1.getHistInfo = .ok d) (X : Ext)
    (M : Material c.type.nslip c.type.nH) (before after : List Inputs) (hne : after ≠ [])
    (m0 m1 m2 : Mem c.type.nH c.type.nslip) (h1 : runSteps X M before m0 = .ok m1) :
    runSteps X M (before ++ after) m0 = .ok m2 ↔ runSteps X M after (restored d m1) = .ok m2 := by
  have hsplit : ∀ (l : List Inputs) (a : Mem c.type.nH c.type.nslip), runSteps X M l a = .ok m1 →
      runSteps X M (l ++ after) a = runSteps X M after m1 := by
    intro l
    induction l with
    | nil => intro a ha; cases ha; rfl
    | cons inp l ih =>
      intro a ha
      rw [List.cons_append]
      rw [runSteps] at ha
      rw [runSteps]
      cases hg : getResponseSngl X M inp a with
      | ok a' => rw [hg] at ha; exact ih a' ha
      | fail s a' => rw [hg] at ha; cases ha
      | undef w => rw [hg] at ha; cases ha
  rw [hsplit before m0 h1]
  cases after with
  | nil => exact absurd rfl hne
  | cons inp l =>
    have ho := C108_restart c S m opts pars strs h d hd X M inp m1 (restored d m1) (restored_same d m1)
    unfold runSteps
    cases ha : getResponseSngl X M inp m1 with
    | ok a =>
      cases hb : getResponseSngl X M inp (restored d m1) with
      | ok b => rw [ha, hb] at ho; simp only [SameOutcome] at ho; rw [ho]
      | fail s b => rw [ha, hb] at ho; exact ho.elim
      | undef w => rw [ha, hb] at ho; exact ho.elim
    | fail t a =>
      cases hb : getResponseSngl X M inp (restored d m1) with
      | ok b => rw [ha, hb] at ho; exact ho.elim
      | fail s b => simp
      | undef w => simp
    | undef v =>
      cases hb : getResponseSngl X M inp (restored d m1) with
      | ok b => rw [ha, hb] at ho; exact ho.elim
      | fail s b => simp
      | undef w => simp

/-- C108: the accumulated slip is a mere counter: adding to it at the start adds the same to it at the
    end of a successful run and changes nothing else -/
theorem C108_counter {n nH : ℕ} (X : Ext) (M : Material n nH) (l : List Inputs) (a b : Mem nH n) (s : ℝ)
    (h : runSteps X M l a = .ok b) : runSteps X M l (a.shift s) = .ok (b.shift s) := by
  induction l generalizing a with
  | nil => cases h; rfl
  | cons inp l ih =>
    have hr : SameRead a (a.shift s) := by
      refine ⟨rfl, rfl, rfl, ?_, ?_, ?_, ?_⟩ <;> funext i <;> simp only [Hist.ofArray, Mem.shift] <;>
        rw [if_neg (by omega)]
    unfold runSteps at h ⊢
    rcases update_shift X M inp hr s (by simp [Hist.ofArray, Mem.shift]) with ⟨r, ha, hb⟩ | ⟨t, r, ha, hb⟩ |
      ⟨t, v, ha, hb⟩ | ⟨w, ha, hb⟩
    · rw [ha] at h; rw [hb]; exact ih r h
    · rw [ha] at h; cases h
    · rw [ha] at h; cases h
    · rw [ha] at h; cases h

/-- C108: the flags are not the least set that will do: the effective slip rate carries the flag, but no
    update reads it, so that with any other value in its place a successful update has the same result in
    every variable -/
theorem C108_refuted_minimal (c : Case) (S : Solver 1) (m : MM c.type) (opts : List ℤ) (pars : List ℝ)
    (strs : List String) (h : (m.initFromParams S opts pars strs).2 = .ok ()) (d : List HistEntry)
    (hd : (m.initFromParams S opts pars strs).1.getHistInfo = .ok d) :
    (entry d 0).name = "shrate_eff" ∧ (entry d 0).state = true ∧
    ∀ (X : Ext) (M : Material c.type.nslip c.type.nH) (inp : Inputs) (a : Mem c.type.nH c.type.nslip)
      (v : ℝ) (r : Mem c.type.nH c.type.nslip), getResponseSngl X M inp a = .ok r →
      getResponseSngl X M inp { a with hist := fun i => if i.val = 0 then v else a.hist i } = .ok r := by
  refine ⟨(C41_names S m opts pars strs h d hd).1,
    (C108_flags c S m opts pars strs h d hd 0 (by unfold numHist; omega)).2.1.2 (by simp), ?_⟩
  intro X M inp a v r hr
  exact ((C58_not_read X M inp inp a { a with hist := fun i => if i.val = 0 then v else a.hist i }
    ⟨rfl, rfl, fun _ _ => rfl, rfl, fun _ _ => rfl, rfl, rfl, fun k h0 _ _ => by simp [h0], rfl⟩).1 r).1 hr

/-- a concrete model, its description, and a state with other values in the two entries without flag -/
example (S : Solver 1) (st : Strides) : ∃ d,
    ((MM.new Case.fccA.type st).initFromParams S [] exPars []).2 = .ok () ∧
    ((MM.new Case.fccA.type st).initFromParams S [] exPars []).1.getHistInfo = .ok d ∧
    ∃ a b : Mem Case.fccA.type.nH Case.fccA.type.nslip, FlaggedSame d a b ∧ a ≠ b ∧
      (Hist.ofArray a.hist).flowStr ≠ (Hist.ofArray b.hist).flowStr := by
  have hi : ((MM.new Case.fccA.type st).initFromParams S [] exPars []).2 = .ok () :=
    (C39_cubic .fccA (by simp) S _ exPars [] rfl (by simp)).1 (by simp [exPars]; norm_num)
  obtain ⟨d, hd, -⟩ := C41_length S _ _ _ _ hi
  refine ⟨d, hi, hd, exMem ![1, 2, 3, 4, 5] none,
    { exMem ![1, 2, 3, 4, 5] none with
      hist := fun i => if i.val = 2 then (exMem ![1, 2, 3, 4, 5] none).hist i + 1
        else (exMem ![1, 2, 3, 4, 5] none).hist i }, ⟨rfl, rfl, rfl, fun i hs => ?_⟩, fun hc => ?_, ?_⟩
  · have h2 := ((C108_flags .fccA S _ _ _ _ hi d hd i.val i.2).2.1.1 hs).1
    simp [h2]
  · have := congrArg (fun m : Mem Case.fccA.type.nH Case.fccA.type.nslip => (Hist.ofArray m.hist).flowStr) hc
    simp [Hist.ofArray] at this
  · simp [Hist.ofArray]

/-- a run of one successful step, for C108_history, C108_counter and C108_refuted_minimal -/
example (e : Vec 5) : ∃ r, runSteps exExt (exMat exEl) [exInp exEl e] (exMem e none) = .ok r := by
  obtain ⟨r, hr⟩ := ex_ok exEl exEl_pos e none
  exact ⟨r, by simp [runSteps, hr]⟩

end Ecm.Props
