/-
  C97: the developer's Python object called in any order.
-/
import Verif.Model.DevObj
import Verif.Props.PyCall

namespace Ecm.Props
open Ecm Spec Classical

variable {n nH : ℕ}

/-! ### What the object holds -/

/-- the object after a successful setup, as a function of what setup computes and of the two members that it leaves
    alone -/
def holding (D : DevProb n nH) (a b : ℝ) : DevObj n nH where
  set := some { dt := D.dt, d := D.d, tkelv := D.tkelv, quatN := D.quatN, eos := D.eos }
  hardU := some D.hardU
  prob := some ⟨D.prob, D.prob, none⟩
  eDevTot := a
  halfVMidDt := b

/-- **C97, setup forgets the past.** Setup succeeds exactly when the functions of C60 do, and then the object holds what
    they compute from the arguments of this call, whatever calls came before.  The exceptions are the two members of the
    energy. -/
theorem C97_setup (M : Material n nH) (o o' : DevObj n nH) (inp : Inputs) (m : Mem nH n) :
    o.setup M inp m = .ok o' ↔ ∃ D, devSetup M inp m = .ok D ∧ o' = holding D o.eDevTot o.halfVMidDt := by
  unfold DevObj.setup devSetup
  simp only
  split_ifs
  · simp
  · simp
  · simp only [devSetOf]
    cases M.kin.updateH (Hist.ofArray m.hist).h inp.dt (Hist.ofArray m.hist).gdot with
    | fail s => simp [Out.bind]
    | undef w => simp [Out.bind]
    | ok u =>
      simp only [Out.bind]
      cases Updst.make M.geom M.kin M.el inp.dt (inp.vr 1)
        (M.eos.updateSimple (inp.vr 1) (inp.vr 3) m.eInt (m.stress 6)).eNew
        (M.eos.updateSimple (inp.vr 1) (inp.vr 3) m.eInt (m.stress 6)).press
        (M.eos.evalPT (inp.vr 0) m.eInt).2 u.1 (Hist.ofArray m.hist).e
        (vecsVNormalize (Hist.ofArray m.hist).q) (svecToVecd inp.d) inp.w with
      | fail s => simp
      | undef w => simp
      | ok P => simp [holding, eq_comm]

theorem setup_prob {M : Material n nH} {o o' : DevObj n nH} {inp : Inputs} {m : Mem nH n} {msg : String}
    (h : o.setup M inp m = .fail msg o') : o'.prob = o.prob.map (fun p => p.overwrite inp m) ∧ o'.hardU = o.hardU ∧
      o'.set.isSome ∧ ¬∃ D, devSetup M inp m = .ok D := by
  have h0 := h
  unfold DevObj.setup at h
  simp only at h
  split_ifs at h
  cases hu : M.kin.updateH (Hist.ofArray m.hist).h inp.dt (Hist.ofArray m.hist).gdot with
  | undef w => simp [hu] at h
  | ok u =>
    simp only [hu] at h
    split at h <;> cases h
  | fail s =>
    simp only [hu] at h
    cases h
    refine ⟨rfl, rfl, rfl, ?_⟩
    rintro ⟨D, hD⟩
    have := (C97_setup M o _ inp m).2 ⟨D, hD, rfl⟩
    rw [h0] at this
    cases this

/-! ### Which sequences of calls are defined -/

/-- a call of setup that succeeds (a fact about the arguments alone) -/
def SetsUp (M : Material n nH) (c : DevCall n nH) : Prop :=
  ∃ inp m D, c = .setup inp m ∧ devSetup M inp m = .ok D

/-- the residual has been evaluated since the last successful setup -/
def Evaluated (M : Material n nH) (l : List (DevCall n nH)) : Prop :=
  ∃ l1 x l2, l = l1 ++ DevCall.computeRJ x :: l2 ∧ (∃ c ∈ l1, SetsUp M c) ∧ ∀ c ∈ l2, ¬SetsUp M c

theorem calls_append (M : Material n nH) (l1 l2 : List (DevCall n nH)) (o : DevObj n nH) :
    DevObj.calls M (l1 ++ l2) o = Out.bind (DevObj.calls M l1 o) fun o' => DevObj.calls M l2 o' := by
  induction l1 generalizing o with
  | nil => rfl
  | cons c l ih =>
    simp only [List.cons_append, DevObj.calls]
    cases o.call M c with
    | ok o' => exact ih o'
    | fail s => rfl
    | undef w => rfl

theorem evaluated_rj {M : Material n nH} {l : List (DevCall n nH)} {x : Vec 8} :
    Evaluated M (l ++ [.computeRJ x]) ↔ ∃ c ∈ l, SetsUp M c := by
  constructor
  · rintro ⟨l1, y, l2, e, ⟨c, hc, hs⟩, -⟩
    refine ⟨c, ?_, hs⟩
    have hm : c ∈ l ++ [.computeRJ x] := by rw [e]; exact List.mem_append_left _ hc
    rcases List.mem_append.1 hm with h | h
    · exact h
    · obtain ⟨inp, m, D, h1, -⟩ := hs
      rw [List.mem_singleton.1 h] at h1
      cases h1
  · intro h
    exact ⟨l, x, [], rfl, h, fun _ h => absurd h (by simp)⟩

theorem evaluated_other {M : Material n nH} {l : List (DevCall n nH)} {c : DevCall n nH} (hc : ∀ x, c ≠ .computeRJ x)
    (hs : ¬SetsUp M c) : Evaluated M (l ++ [c]) ↔ Evaluated M l := by
  constructor
  · rintro ⟨l1, y, l2, e, h1, h2⟩
    rcases List.eq_nil_or_concat l2 with rfl | ⟨l3, d, rfl⟩
    · have := List.append_inj' e rfl
      exact absurd (List.cons.inj this.2).1 (hc y)
    · rw [List.concat_eq_append, ← List.cons_append, ← List.append_assoc] at e
      have := List.append_inj' e rfl
      exact ⟨l1, y, l3, this.1, h1, fun c hc => h2 c (by rw [List.concat_eq_append]; exact List.mem_append_left _ hc)⟩
  · rintro ⟨l1, y, l2, e, h1, h2⟩
    refine ⟨l1, y, l2 ++ [c], by rw [e, List.append_assoc]; rfl, h1, ?_⟩
    intro d hd
    rcases List.mem_append.1 hd with h | h
    · exact h2 d h
    · rw [List.mem_singleton.1 h]
      exact hs

theorem evaluated_setup {M : Material n nH} {l : List (DevCall n nH)} {c : DevCall n nH} (hs : SetsUp M c) :
    ¬Evaluated M (l ++ [c]) := by
  rintro ⟨l1, y, l2, e, h1, h2⟩
  rcases List.eq_nil_or_concat l2 with rfl | ⟨l3, d, rfl⟩
  · have := (List.cons.inj (List.append_inj' e rfl).2).1
    obtain ⟨inp, m, D, h, -⟩ := hs
    rw [h] at this
    cases this
  · rw [List.concat_eq_append, ← List.cons_append, ← List.append_assoc] at e
    have := (List.cons.inj (List.append_inj' e rfl).2).1
    subst this
    exact h2 c (by simp) hs

/-- what is known of an object after a sequence of calls -/
structure Knows (M : Material n nH) (l : List (DevCall n nH)) (o : DevObj n nH) : Prop where
  prob : o.prob.isSome ↔ ∃ c ∈ l, SetsUp M c
  last : (∃ p, o.prob = some p ∧ p.last.isSome) ↔ Evaluated M l
  rest : o.prob.isSome → o.set.isSome ∧ o.hardU.isSome

theorem sets_append {M : Material n nH} {l : List (DevCall n nH)} {c : DevCall n nH} (hs : ¬SetsUp M c) :
    (∃ d ∈ l ++ [c], SetsUp M d) ↔ ∃ d ∈ l, SetsUp M d := by
  constructor
  · rintro ⟨d, hd, h⟩
    rcases List.mem_append.1 hd with h' | h'
    · exact ⟨d, h', h⟩
    · rw [List.mem_singleton.1 h'] at h
      exact absurd h hs
  · rintro ⟨d, hd, h⟩
    exact ⟨d, List.mem_append_left _ hd, h⟩

theorem getState_prob {el : Elast} {o : DevObj n nH} {x : Vec 8} {v : Mem nH n} {r : Mem nH n × DevObj n nH}
    (h : o.getState el x v = .ok r ∨ ∃ s, o.getState el x v = .fail s r) :
    r.2.prob = o.prob ∧ r.2.hardU = o.hardU ∧ r.2.set.isSome ∧ o.prob.isSome := by
  unfold DevObj.getState at h
  cases hp : o.prob with
  | none => simp [hp] at h
  | some p =>
    cases hs : o.set with
    | none => simp [hp, hs] at h
    | some s =>
      cases hu : o.hardU with
      | none => simp [hp, hs, hu] at h
      | some hU =>
        simp only [hp, hs, hu] at h
        cases hl : p.last with
        | none => simp [hl] at h
        | some t =>
          simp only [hl] at h
          cases hg : el.getGmod with
          | undef w => simp [hg] at h
          | fail w =>
            simp only [hg] at h
            rcases h with h | ⟨s', h⟩ <;> cases h
            exact ⟨rfl, rfl, rfl, rfl⟩
          | ok g =>
            simp only [hg] at h
            rcases h with h | ⟨s', h⟩ <;> cases h
            exact ⟨rfl, rfl, rfl, rfl⟩

theorem knows (M : Material n nH) (a b : ℝ) (l : List (DevCall n nH)) :
    ∀ o, DevObj.calls M l (DevObj.new a b) = .ok o → Knows M l o := by
  induction l using List.reverseRecOn with
  | nil =>
    intro o h
    cases h
    refine ⟨by simp [DevObj.new], ?_, by simp [DevObj.new]⟩
    constructor
    · rintro ⟨p, h, -⟩
      simp [DevObj.new] at h
    · rintro ⟨l1, x, l2, e, -⟩
      simp at e
  | append_singleton l c ih =>
    intro o' h
    rw [calls_append] at h
    obtain ⟨o, ho, h⟩ := Out.bind_ok h
    have K := ih o ho
    obtain ⟨o2, h, h2⟩ := Out.bind_ok (show Out.bind (o.call M c) _ = _ from h)
    cases h2
    cases c with
    | setup inp m =>
      simp only [DevObj.call] at h
      cases hs : o.setup M inp m with
      | undef w => simp [hs] at h
      | ok o1 =>
        simp only [hs] at h
        cases h
        obtain ⟨D, hD, rfl⟩ := (C97_setup M o _ inp m).1 hs
        have hS : SetsUp M (.setup inp m) := ⟨inp, m, D, rfl, hD⟩
        refine ⟨⟨fun _ => ⟨_, by simp, hS⟩, fun _ => rfl⟩, ⟨?_, fun h => absurd h (evaluated_setup hS)⟩, fun _ => ⟨rfl, rfl⟩⟩
        rintro ⟨p, hp, hl⟩
        cases hp
        simp at hl
      | fail s o1 =>
        simp only [hs] at h
        cases h
        obtain ⟨h1, h2, h3, h4⟩ := setup_prob hs
        have hS : ¬SetsUp M (.setup inp m) := by
          rintro ⟨inp', m', D, e, hD⟩
          cases e
          exact h4 ⟨D, hD⟩
        refine ⟨?_, ?_, ?_⟩
        · rw [sets_append hS, ← K.prob, h1]
          simp
        · rw [evaluated_other (fun x h => by cases h) hS, ← K.last, h1]
          constructor
          · rintro ⟨p, hp, hl⟩
            obtain ⟨p0, hp0, rfl⟩ := Option.map_eq_some_iff.1 hp
            exact ⟨p0, hp0, hl⟩
          · rintro ⟨p0, hp0, hl⟩
            exact ⟨p0.overwrite inp m, by rw [hp0]; rfl, hl⟩
        · intro h
          rw [h1, Option.isSome_map] at h
          rw [h2]
          exact ⟨h3, (K.rest h).2⟩
    | computeRJ x =>
      simp only [DevObj.call] at h
      obtain ⟨r, hr, h⟩ := Out.bind_ok h
      cases h
      unfold DevObj.computeRJ at hr
      cases hp : o.prob with
      | none => simp [hp] at hr
      | some p =>
        simp only [hp] at hr
        cases hr
        have hS : ¬SetsUp M (.computeRJ x) := by rintro ⟨_, _, _, e, -⟩; cases e
        have hsome : ∃ c ∈ l, SetsUp M c := K.prob.1 (by rw [hp]; rfl)
        refine ⟨?_, ?_, fun _ => K.rest (by rw [hp]; rfl)⟩
        · rw [sets_append hS]
          exact ⟨fun _ => hsome, fun _ => rfl⟩
        · rw [evaluated_rj]
          exact ⟨fun _ => hsome, fun _ => ⟨_, rfl, rfl⟩⟩
    | getState x v =>
      have hS : ¬SetsUp M (.getState x v) := by rintro ⟨_, _, _, e, -⟩; cases e
      simp only [DevObj.call] at h
      have key : ∃ r, (o.getState M.el x v = .ok r ∨ ∃ s, o.getState M.el x v = .fail s r) ∧ r.2 = o' := by
        cases hg : o.getState M.el x v with
        | undef w => simp [hg] at h
        | ok r => simp only [hg] at h; cases h; exact ⟨r, Or.inl rfl, rfl⟩
        | fail s r => simp only [hg] at h; cases h; exact ⟨r, Or.inr ⟨s, rfl⟩, rfl⟩
      obtain ⟨r, hr, rfl⟩ := key
      obtain ⟨h1, h2, h3, h4⟩ := getState_prob hr
      refine ⟨?_, ?_, ?_⟩
      · rw [sets_append hS, ← K.prob, h1]
      · rw [evaluated_other (fun x h => by cases h) hS, ← K.last, h1]
      · intro h
        rw [h2]
        exact ⟨h3, (K.rest h4).2⟩

/-- **C97, evaluation.** After any defined sequence of calls on a new object (exceptions caught by the caller), the residual
    can be evaluated exactly when some earlier setup succeeded; otherwise the call goes through a null pointer. -/
theorem C97_evaluation (M : Material n nH) (a b : ℝ) (l : List (DevCall n nH)) (o : DevObj n nH)
    (h : DevObj.calls M l (DevObj.new a b) = .ok o) (x : Vec 8) :
    (∃ r, o.computeRJ x = .ok r) ↔ ∃ c ∈ l, SetsUp M c := by
  rw [← (knows M a b l o h).prob]
  unfold DevObj.computeRJ
  cases o.prob with
  | none => simp
  | some p => simp

theorem getGmod_def (el : Elast) (w : String) : el.getGmod ≠ .undef w := by
  unfold Elast.getGmod
  split_ifs <;> simp

/-- **C97, state.** After any defined sequence of calls on a new object, getState is defined exactly when the residual has
    been evaluated since the last successful setup. -/
theorem C97_state (M : Material n nH) (a b : ℝ) (l : List (DevCall n nH)) (o : DevObj n nH)
    (h : DevObj.calls M l (DevObj.new a b) = .ok o) (x : Vec 8) (v : Mem nH n) :
    (∀ w, o.getState M.el x v ≠ .undef w) ↔ Evaluated M l := by
  have K := knows M a b l o h
  rw [← K.last]
  constructor
  · intro hw
    unfold DevObj.getState at hw
    cases hp : o.prob with
    | none => simp [hp] at hw
    | some p =>
      cases hs : o.set with
      | none => simp [hp, hs] at hw
      | some s =>
        cases hu : o.hardU with
        | none => simp [hp, hs, hu] at hw
        | some hU =>
          cases hl : p.last with
          | none => simp [hp, hs, hu, hl] at hw
          | some t => exact ⟨p, rfl, by rw [hl]; rfl⟩
  · rintro ⟨p, hp, hl⟩ w
    obtain ⟨h1, h2⟩ := K.rest (by rw [hp]; rfl)
    obtain ⟨s, hs⟩ := Option.isSome_iff_exists.1 h1
    obtain ⟨hU, hu⟩ := Option.isSome_iff_exists.1 h2
    obtain ⟨t, ht⟩ := Option.isSome_iff_exists.1 hl
    unfold DevObj.getState
    simp only [hp, hs, hu, ht]
    cases hg : M.el.getGmod with
    | undef w' => exact absurd hg (getGmod_def _ _)
    | fail s => simp
    | ok g => simp

/-! ### What is returned -/

/-- the object after setup and evaluations, the last of them at `x` -/
noncomputable def evald (D : DevProb n nH) (x : Vec 8) (a b : ℝ) : DevObj n nH :=
  { holding D a b with
    prob := some ⟨D.prob, D.prob, some ⟨D.prob.gdot x, D.prob.shrateEff x, D.prob.disRate x⟩⟩ }

theorem holding_rj (D : DevProb n nH) (a b : ℝ) (x : Vec 8) :
    (holding D a b).computeRJ x = .ok ((D.prob.resid x, D.prob.jac x), evald D x a b) := rfl

theorem evald_rj (D : DevProb n nH) (a b : ℝ) (x y : Vec 8) :
    (evald D y a b).computeRJ x = .ok ((D.prob.resid x, D.prob.jac x), evald D x a b) := rfl

theorem calls_rj (M : Material n nH) (D : DevProb n nH) (a b : ℝ) (xs : List (Vec 8)) (xl y : Vec 8) :
    DevObj.calls M ((xs ++ [xl]).map .computeRJ) (evald D y a b) = .ok (evald D xl a b) := by
  induction xs generalizing y with
  | nil => simp only [List.nil_append, List.map_cons, List.map_nil, DevObj.calls, DevObj.call, evald_rj, Out.bind]
  | cons x xs ih =>
    simp only [List.cons_append, List.map_cons, DevObj.calls, DevObj.call, evald_rj, Out.bind]
    exact ih x

/-- the object after the protocol of the documentation (ecmech_classes.hpp:31-46): setup, evaluations -/
theorem protocol {M : Material n nH} {l : List (DevCall n nH)} {o0 o : DevObj n nH} {inp : Inputs} {m : Mem nH n}
    {D : DevProb n nH} (hD : devSetup M inp m = .ok D) {xs : List (Vec 8)} {xl : Vec 8}
    (h : DevObj.calls M (l ++ .setup inp m :: (xs ++ [xl]).map .computeRJ) o0 = .ok o) :
    ∃ o1, DevObj.calls M l o0 = .ok o1 ∧ o = evald D xl o1.eDevTot o1.halfVMidDt := by
  rw [calls_append] at h
  obtain ⟨o1, h1, h⟩ := Out.bind_ok h
  refine ⟨o1, h1, ?_⟩
  obtain ⟨o2, h2, h⟩ := Out.bind_ok (show Out.bind (o1.call M (.setup inp m)) _ = _ from h)
  have hs := (C97_setup M o1 _ inp m).2 ⟨D, hD, rfl⟩
  simp only [DevObj.call, hs] at h2
  cases h2
  cases xs with
  | nil =>
    simp only [List.nil_append, List.map_cons, List.map_nil, DevObj.calls, DevObj.call, holding_rj, Out.bind] at h
    exact (Out.ok.inj h).symm
  | cons x xs =>
    simp only [List.cons_append, List.map_cons, DevObj.calls, DevObj.call, holding_rj, Out.bind] at h
    rw [calls_rj] at h
    exact (Out.ok.inj h).symm

/-- **C97, residual.** After a successful setup, whatever came before and however many evaluations were made since, an
    evaluation gives the residual and the Jacobian of the problem of the batch update (C60). -/
theorem C97_residual (M : Material n nH) (l : List (DevCall n nH)) (o0 o : DevObj n nH) (inp : Inputs) (m : Mem nH n)
    (D : DevProb n nH) (hD : devSetup M inp m = .ok D) (xs : List (Vec 8))
    (h : DevObj.calls M (l ++ .setup inp m :: xs.map .computeRJ) o0 = .ok o) (x : Vec 8) :
    ∃ o', o.computeRJ x = .ok ((D.prob.resid x, D.prob.jac x), o') := by
  rcases List.eq_nil_or_concat xs with rfl | ⟨ys, y, rfl⟩
  · rw [calls_append] at h
    obtain ⟨o1, h1, h⟩ := Out.bind_ok h
    obtain ⟨o2, h2, h⟩ := Out.bind_ok (show Out.bind (o1.call M (.setup inp m)) _ = _ from h)
    have hs := (C97_setup M o1 _ inp m).2 ⟨D, hD, rfl⟩
    simp only [DevObj.call, hs] at h2
    cases h2
    cases h
    exact ⟨_, holding_rj _ _ _ _⟩
  · rw [List.concat_eq_append] at h
    obtain ⟨o1, -, rfl⟩ := protocol hD h
    exact ⟨_, evald_rj _ _ _ _ _⟩

/-- getState of an object after the protocol -/
theorem evald_getState (el : Elast) (D : DevProb n nH) (hd : D.prob.dSm = svecToVecd D.d) (xl x : Vec 8) (a b : ℝ)
    (v : Mem nH n) (r : DevOut nH n) (h : devGetState el D xl x v.hist = .ok r) :
    (evald D xl a b).getState el x v =
      .ok ({ v with
              eInt := D.eos.eNew + (a + b * vecsInnerSvecDev r.stress D.d)
              stress := r.stress
              hist := r.hist
              sdd := r.sdd },
        evald { D with eos := { D.eos with eNew := D.eos.eNew + (a + b * vecsInnerSvecDev r.stress D.d) } } xl
          (a + b * vecsInnerSvecDev r.stress D.d) b) := by
  unfold devGetState at h
  obtain ⟨g, hg, h⟩ := Out.bind_ok h
  cases h
  unfold DevObj.getState
  simp only [evald, holding, hg, hd]

theorem devSetup_fields {M : Material n nH} {inp : Inputs} {m : Mem nH n} {D : DevProb n nH}
    (h : devSetup M inp m = .ok D) : D.prob.dSm = svecToVecd D.d ∧ D.d = inp.d ∧ D.dt = inp.dt ∧
      D.eos = Step.eosUpdate M inp m ∧ D.quatN = Step.quatN m ∧ Step.setup M inp m = .ok (D.hardU, D.prob) := by
  rw [C60_problem] at h
  obtain ⟨r, hr, h⟩ := Out.bind_ok h
  obtain ⟨hU, P⟩ := r
  obtain ⟨_, _, _, -, -, -, -, -, -, hP⟩ := Step.setup_ok hr
  cases h
  exact ⟨by rw [hP], rfl, rfl, rfl, rfl, hr⟩

/-- **C97, results.** When the calls follow the protocol (setup, evaluations, getState), getState returns what the
    function of C60 gives for the arguments of this setup, the last evaluated point and the point it is called with,
    whatever came before.  Only the energy depends on the past. -/
theorem C97_results (M : Material n nH) (l : List (DevCall n nH)) (o0 o : DevObj n nH) (inp : Inputs) (m v : Mem nH n)
    (D : DevProb n nH) (hD : devSetup M inp m = .ok D) (xs : List (Vec 8)) (xl x : Vec 8)
    (h : DevObj.calls M (l ++ .setup inp m :: (xs ++ [xl]).map .computeRJ) o0 = .ok o) (r : DevOut nH n)
    (hr : devGetState M.el D xl x v.hist = .ok r) :
    ∃ E o', o.getState M.el x v = .ok ({ v with eInt := E, stress := r.stress, hist := r.hist, sdd := r.sdd }, o') := by
  obtain ⟨o1, -, rfl⟩ := protocol hD h
  exact ⟨_, _, evald_getState M.el D (devSetup_fields hD).1 xl x _ _ v r hr⟩

/-- **C97, agreement with the batch update.** When the calls follow the protocol, the last point evaluated and the point
    passed to getState being those of the solver in the batch update, the stress, the moduli and the history (except for the
    number of evaluations) are those of the batch update. -/
theorem C97_batch (X : Ext) (M : Material n nH) (l : List (DevCall n nH)) (o0 o : DevObj n nH) (inp : Inputs)
    (m m' : Mem nH n) (hm : m.mtan = none) (hok : getResponseSngl X M inp m = .ok m') :
    ∃ D, devSetup M inp m = .ok D ∧ ∀ xs, DevObj.calls M (l ++ .setup inp m ::
        (xs ++ [(Step.solve X inp D.prob).xLast]).map .computeRJ) o0 = .ok o →
      ∃ r o', o.getState M.el (Step.solve X inp D.prob).x m = .ok (r, o') ∧ r.stress = m'.stress ∧ r.sdd = m'.sdd ∧
        histOf r = { histOf m' with nFEval := 0 } := by
  obtain ⟨D, s, hD, hs, h1, h2, h3, h4⟩ := C60_state X M inp m m' hok
  refine ⟨D, hD, fun xs h => ?_⟩
  rw [hm] at hs
  obtain ⟨E, o', h5⟩ := C97_results M l o0 o inp m m D hD xs _ _ h s hs
  exact ⟨_, o', h5, h1, h3, h4⟩

/-! ### The energy -/

/-- **C97, the energy is what the memory held.** On a new object the energy that the first getState returns can be any
    number, depending on what the memory of the object held. -/
theorem C97_refuted_energy (M : Material n nH) (inp : Inputs) (m v : Mem nH n) (D : DevProb n nH)
    (hD : devSetup M inp m = .ok D) (xl x : Vec 8) (r : DevOut nH n) (hr : devGetState M.el D xl x v.hist = .ok r) (E : ℝ) :
    ∃ (a b : ℝ) (o : DevObj n nH) (r' : Mem nH n) (o' : DevObj n nH),
      DevObj.calls M [.setup inp m, .computeRJ xl] (DevObj.new a b) = .ok o ∧
      o.getState M.el x v = .ok (r', o') ∧ r'.eInt = E := by
  have hs := (C97_setup M (DevObj.new (E - D.eos.eNew) 0) _ inp m).2 ⟨D, hD, rfl⟩
  refine ⟨E - D.eos.eNew, 0, evald D xl (E - D.eos.eNew) 0, _, _, ?_,
    evald_getState M.el D (devSetup_fields hD).1 xl x _ _ v r hr, ?_⟩
  · simp only [DevObj.calls, DevObj.call, hs, Out.bind]
    rfl
  · simp only
    ring

/-- **C97, even with cleared memory.** When the memory of the object was zero, then at every step of every history of
    complete calls the energy returned is the one after the volume change: the work of the change of shape is never
    counted. -/
theorem C97_refuted_work (M : Material n nH) (l : List (DevCall n nH)) (o : DevObj n nH) (inp : Inputs)
    (m v : Mem nH n) (D : DevProb n nH) (hD : devSetup M inp m = .ok D) (xs : List (Vec 8)) (xl x : Vec 8)
    (h : DevObj.calls M (l ++ .setup inp m :: (xs ++ [xl]).map .computeRJ) (DevObj.new 0 0) = .ok o) (r : DevOut nH n)
    (hr : devGetState M.el D xl x v.hist = .ok r) :
    ∃ r' o', o.getState M.el x v = .ok (r', o') ∧ r'.eInt = (Step.eosUpdate M inp m).eNew := by
  have key : ∀ (l : List (DevCall n nH)) (o1 o2 : DevObj n nH), o1.eDevTot = 0 → o1.halfVMidDt = 0 →
      DevObj.calls M l o1 = .ok o2 → o2.eDevTot = 0 ∧ o2.halfVMidDt = 0 := by
    intro l
    induction l with
    | nil => intro o1 o2 ha hb h; cases h; exact ⟨ha, hb⟩
    | cons c l ih =>
      intro o1 o2 ha hb h
      obtain ⟨o3, h3, h⟩ := Out.bind_ok (show Out.bind (o1.call M c) _ = _ from h)
      refine ih o3 o2 ?_ ?_ h <;> clear h ih
      all_goals
        cases c with
        | setup inp m =>
          simp only [DevObj.call] at h3
          cases hs : o1.setup M inp m with
          | undef w => simp [hs] at h3
          | ok o' =>
            simp only [hs] at h3
            cases h3
            obtain ⟨D, -, rfl⟩ := (C97_setup M o1 _ inp m).1 hs
            assumption
          | fail s o' =>
            simp only [hs] at h3
            cases h3
            unfold DevObj.setup at hs
            simp only at hs
            split_ifs at hs
            split at hs
            · cases hs
            · cases hs
              assumption
            · split at hs <;> cases hs
        | computeRJ x =>
          simp only [DevObj.call] at h3
          obtain ⟨q, hq, h3⟩ := Out.bind_ok h3
          cases h3
          unfold DevObj.computeRJ at hq
          split at hq
          · cases hq
          · cases hq
            assumption
        | getState x v =>
          simp only [DevObj.call, DevObj.getState] at h3
          cases hp : o1.prob <;> cases hs : o1.set <;> cases hu : o1.hardU <;> simp only [hp, hs, hu] at h3 <;>
            try cases h3
          rename_i p _ _
          cases hl : p.last with
          | none => simp [hl] at h3
          | some t =>
            cases hg : M.el.getGmod with
            | undef w => simp [hl, hg] at h3
            | fail s => simp only [hl, hg] at h3; cases h3; simp [ha, hb]
            | ok g => simp only [hl, hg] at h3; cases h3; simp [ha, hb]
  obtain ⟨o1, h1, rfl⟩ := protocol hD h
  obtain ⟨ha, hb⟩ := key l _ o1 rfl rfl h1
  refine ⟨_, _, evald_getState M.el D (devSetup_fields hD).1 xl x _ _ v r hr, ?_⟩
  simp only [ha, hb]
  rw [(devSetup_fields hD).2.2.2.1]
  ring

/-! ### Calls that the protocol does not foresee -/

/-- **C97, getState twice.** A second call with the variables returned by the first adds the slip of the step a second
    time. -/
theorem C97_refuted_twice (M : Material n nH) (l : List (DevCall n nH)) (o0 o : DevObj n nH) (inp : Inputs)
    (m v : Mem nH n) (D : DevProb n nH) (hD : devSetup M inp m = .ok D) (xs : List (Vec 8)) (xl x : Vec 8)
    (h : DevObj.calls M (l ++ .setup inp m :: (xs ++ [xl]).map .computeRJ) o0 = .ok o) (r : DevOut nH n)
    (hr : devGetState M.el D xl x v.hist = .ok r) :
    ∃ v1 o1 v2 o2, o.getState M.el x v = .ok (v1, o1) ∧ o1.getState M.el x v1 = .ok (v2, o2) ∧
      (histOf v1).shrEff = (histOf v).shrEff + D.prob.shrateEff xl * inp.dt ∧
      (histOf v2).shrEff = (histOf v).shrEff + 2 * (D.prob.shrateEff xl * inp.dt) := by
  obtain ⟨o1, -, rfl⟩ := protocol hD h
  obtain ⟨hd, -, hdt, -, -, -⟩ := devSetup_fields hD
  have key : ∀ (D' : DevProb n nH) (w : Vec (numHist nH n)), D'.prob = D.prob → D'.dt = D.dt →
      ∃ r', devGetState M.el D' xl x w = .ok r' ∧
        (Hist.ofArray r'.hist).shrEff = (Hist.ofArray w).shrEff + D.prob.shrateEff xl * D.dt := by
    intro D' w hp ht
    unfold devGetState at hr
    obtain ⟨g, hg, -⟩ := Out.bind_ok hr
    unfold devGetState
    rw [hg]
    refine ⟨_, rfl, ?_⟩
    simp only [Hist.ofArray_toArray, hp, ht]
  obtain ⟨r1, hr1, e1⟩ := key D v.hist rfl rfl
  have h1 := evald_getState M.el D hd xl x o1.eDevTot o1.halfVMidDt v r1 hr1
  set D' : DevProb n nH := { D with eos := { D.eos with
    eNew := D.eos.eNew + (o1.eDevTot + o1.halfVMidDt * vecsInnerSvecDev r1.stress D.d) } } with hD'
  obtain ⟨r2, hr2, e2⟩ := key D' r1.hist rfl rfl
  refine ⟨_, _, _, _, h1, evald_getState M.el D' hd xl x _ _ _ r2 hr2, ?_, ?_⟩
  · simp only [histOf, e1, hdt]
  · simp only [histOf, e2, e1, hdt]
    ring

/-- **C97, the slip rates are those of the last evaluation.** Whatever point getState is called with, the slip rates and
    the slip increment are those of the point evaluated last, while the elastic strain is that of the argument. -/
theorem C97_last (M : Material n nH) (l : List (DevCall n nH)) (o0 o : DevObj n nH) (inp : Inputs)
    (m v : Mem nH n) (D : DevProb n nH) (hD : devSetup M inp m = .ok D) (xs : List (Vec 8)) (xl x : Vec 8)
    (h : DevObj.calls M (l ++ .setup inp m :: (xs ++ [xl]).map .computeRJ) o0 = .ok o) (v' : Mem nH n) (o' : DevObj n nH)
    (hr : o.getState M.el x v = .ok (v', o')) :
    (histOf v').gdot = D.prob.gdot xl ∧ (histOf v').shrateEff = D.prob.shrateEff xl ∧ (histOf v').e = D.prob.eF x := by
  obtain ⟨o1, -, rfl⟩ := protocol hD h
  unfold DevObj.getState at hr
  simp only [evald, holding] at hr
  cases hg : M.el.getGmod with
  | undef w => simp [hg] at hr
  | fail w => simp [hg] at hr
  | ok g =>
    simp only [hg] at hr
    cases hr
    simp only [histOf, Hist.ofArray_toArray]
    exact ⟨trivial, trivial, trivial⟩

end Ecm.Props
