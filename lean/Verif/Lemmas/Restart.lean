/-
  What the update reads of the memory.
-/
import Verif.Model.Response

namespace Ecm
open Classical
variable {n nH : ℕ}

/-- the parts of the memory that the update reads, the accumulated slip apart -/
structure SameRead (a b : Mem nH n) : Prop where
  eInt : a.eInt = b.eInt
  stress : a.stress = b.stress
  want : a.mtan.isSome = b.mtan.isSome
  e : (Hist.ofArray a.hist).e = (Hist.ofArray b.hist).e
  q : (Hist.ofArray a.hist).q = (Hist.ofArray b.hist).q
  h : (Hist.ofArray a.hist).h = (Hist.ofArray b.hist).h
  gdot : (Hist.ofArray a.hist).gdot = (Hist.ofArray b.hist).gdot

theorem SameRead.tK {a b : Mem nH n} (h : SameRead a b) (M : Material n nH) (inp : Inputs) :
    Step.tK M inp a = Step.tK M inp b := by
  unfold Step.tK; rw [h.eInt]

theorem SameRead.eos {a b : Mem nH n} (h : SameRead a b) (M : Material n nH) (inp : Inputs) :
    Step.eosUpdate M inp a = Step.eosUpdate M inp b := by
  unfold Step.eosUpdate; rw [h.eInt, h.stress]

theorem SameRead.setup {a b : Mem nH n} (h : SameRead a b) (M : Material n nH) (inp : Inputs) :
    Step.setup M inp a = Step.setup M inp b := by
  unfold Step.setup Step.quatN
  simp only [h.e, h.q, h.h, h.gdot, h.tK, h.eos]

/-- shifting the accumulated slip of a history -/
def Mem.shift (m : Mem nH n) (s : ℝ) : Mem nH n :=
  { m with hist := fun i => if i.val = 1 then m.hist i + s else m.hist i }

theorem newHist_shift (X : Ext) (inp : Inputs) (H G : Hist nH n) (hU : Vec nH) (P : Updst n)
    (r : SolveResult 8) (want : Bool) (s : ℝ) (hs : G.shrEff = H.shrEff + s) :
    (Step.newHist X inp G hU P r want).toArray
      = fun i => if i.val = 1 then (Step.newHist X inp H hU P r want).toArray i + s
          else (Step.newHist X inp H hU P r want).toArray i := by
  funext i
  by_cases h0 : i.val = 0
  · simp [Hist.toArray, Step.newHist, h0]
  by_cases h1 : i.val = 1
  · simp [Hist.toArray, Step.newHist, h1, hs]; ring
  · simp only [Hist.toArray, Step.newHist, if_neg h1]

/-- the outcomes of two updates that read the same but for an accumulated slip larger by `s`: the
    results differ in the accumulated slip alone, by the same `s` -/
theorem update_shift (X : Ext) (M : Material n nH) (inp : Inputs) {a b : Mem nH n} (h : SameRead a b)
    (s : ℝ) (hs : (Hist.ofArray b.hist).shrEff = (Hist.ofArray a.hist).shrEff + s) :
    (∃ r, getResponseSngl X M inp a = .ok r ∧ getResponseSngl X M inp b = .ok (r.shift s)) ∨
    (∃ t r, getResponseSngl X M inp a = .fail t r ∧
      getResponseSngl X M inp b = .fail t { r.shift s with sdd := b.sdd }) ∨
    (∃ t v, getResponseSngl X M inp a = .fail t { a with tkelv := v } ∧
      getResponseSngl X M inp b = .fail t { b with tkelv := v }) ∨
    (∃ w, getResponseSngl X M inp a = .undef w ∧ getResponseSngl X M inp b = .undef w) := by
  unfold getResponseSngl
  rw [← h.setup M inp]
  cases hS : Step.setup M inp a with
  | undef w => exact Or.inr (Or.inr (Or.inr ⟨w, rfl, rfl⟩))
  | fail t => exact Or.inr (Or.inr (Or.inl ⟨t, _, rfl, by simp only [h.tK]⟩))
  | ok hP =>
    obtain ⟨hU, P⟩ := hP
    simp only
    unfold Step.run
    simp only [← h.tK, ← h.eos, ← h.want, ← h.stress]
    by_cases hc : (Step.solve X inp P).converged = false
    · rw [if_pos hc, if_pos hc]
      exact Or.inr (Or.inr (Or.inl ⟨_, _, rfl, rfl⟩))
    · rw [if_neg hc, if_neg hc]
      cases ht : Step.tangent X (Step.eosUpdate M inp a).bulkNew P (Step.solve X inp P).x
          a.mtan.isSome with
      | none => exact Or.inr (Or.inr (Or.inl ⟨_, _, rfl, rfl⟩))
      | some t =>
        simp only
        have hN := newHist_shift X inp (Hist.ofArray a.hist) (Hist.ofArray b.hist) hU P
          (Step.solve X inp P) a.mtan.isSome s hs
        cases hG : M.el.getGmod with
        | undef w => exact Or.inr (Or.inr (Or.inr ⟨w, rfl, rfl⟩))
        | fail t =>
          refine Or.inr (Or.inl ⟨_, _, rfl, ?_⟩)
          simp only [Mem.shift, hN, h.eInt]
        | ok g =>
          refine Or.inl ⟨_, rfl, ?_⟩
          simp only [Mem.shift, hN]

end Ecm
