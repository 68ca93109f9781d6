/- Lemmas about threads that share memory. -/
import Verif.Model.Parallel
import Mathlib.Logic.Relation
import Mathlib.Order.WellFounded

namespace Ecm
open Classical

/-- the elements of `F` after a run depend only on the elements of `F` before it -/
theorem Prog.exec_congr {F : Set Loc} {p : Prog} (h : p.Within F) : ∀ {s s' : Store},
    (∀ l ∈ F, s l = s' l) → ∀ l ∈ F, p.exec s l = p.exec s' l := by
  induction h with
  | done => intro s s' hs l hl; exact hs l hl
  | @read l k hl _ ih =>
    intro s s' hs l' hl'
    simp only [Prog.exec]
    rw [hs l hl]
    exact ih _ hs l' hl'
  | @write l v k hl _ ih =>
    intro s s' hs l' hl'
    simp only [Prog.exec]
    refine ih ?_ l' hl'
    intro x hx
    by_cases hxl : x = l
    · subst hxl; simp
    · simp [Function.update_of_ne hxl, hs x hx]

/-- elements outside of `F` are not touched -/
theorem Prog.exec_out {F : Set Loc} {p : Prog} (h : p.Within F) : ∀ {s : Store} {l : Loc},
    l ∉ F → p.exec s l = s l := by
  induction h with
  | done => intro s l _; rfl
  | read hl _ ih => intro s l h; exact ih _ h
  | write hl _ ih =>
    intro s l h
    simp only [Prog.exec]
    rw [ih h, Function.update_of_ne]
    rintro rfl
    exact h hl

theorem Prog.Step.exec_eq {p p' : Prog} {s s' : Store} (h : Prog.Step p s p' s') :
    p'.exec s' = p.exec s := by
  cases h <;> rfl

theorem Prog.Step.within {F : Set Loc} {p p' : Prog} {s s' : Store} (h : Prog.Step p s p' s')
    (hp : p.Within F) : p'.Within F := by
  cases h with
  | read l k => cases hp with | read _ h => exact h _
  | write l v k => cases hp with | write _ h => exact h

theorem Prog.Step.out {F : Set Loc} {p p' : Prog} {s s' : Store} (h : Prog.Step p s p' s')
    (hp : p.Within F) : ∀ l, l ∉ F → s' l = s l := by
  intro l hl
  cases h with
  | read => rfl
  | write l' v k =>
    cases hp with
    | write hl' _ =>
      rw [Function.update_of_ne]
      rintro rfl
      exact hl hl'

/-- what is kept by every step of every thread -/
theorem Conf.Run.keep {N : ℕ} {F : Fin N → Set Loc} (hF : ∀ i j, i ≠ j → ∀ l ∈ F i, l ∉ F j)
    {c c' : Conf N} (hW : ∀ i, (c.1 i).Within (F i)) (h : Conf.Run c c') :
    (∀ i, (c'.1 i).Within (F i)) ∧
    (∀ i, ∀ l ∈ F i, (c'.1 i).exec c'.2 l = (c.1 i).exec c.2 l) ∧
    (∀ l, (∀ i, l ∉ F i) → c'.2 l = c.2 l) := by
  induction h with
  | refl => exact ⟨hW, fun _ _ _ => rfl, fun _ _ => rfl⟩
  | @tail c1 c2 _ hs ih =>
    obtain ⟨w1, e1, o1⟩ := ih
    cases hs with
    | mk ps s j p' s' hstep =>
      refine ⟨?_, ?_, ?_⟩
      · intro i
        by_cases hij : i = j
        · subst hij
          simpa using hstep.within (w1 i)
        · simpa [Function.update_of_ne hij] using w1 i
      · intro i l hl
        rw [← e1 i l hl]
        by_cases hij : i = j
        · subst hij
          simp only [Function.update_self]
          rw [hstep.exec_eq]
        · simp only [Function.update_of_ne hij]
          refine Prog.exec_congr (w1 i) ?_ l hl
          intro x hx
          exact hstep.out (w1 j) x (hF i j hij x hx)
      · intro l hl
        rw [← o1 l hl]
        exact hstep.out (w1 j) l (hl j)

/-- the programs that remain after one more step -/
inductive Prog.Next : Prog → Prog → Prop
  | read (l : Loc) (k : ℝ → Prog) (v : ℝ) : Prog.Next (k v) (.read l k)
  | write (l : Loc) (v : ℝ) (k : Prog) : Prog.Next k (.write l v k)

theorem Prog.next_acc (p : Prog) : Acc Prog.Next p := by
  induction p with
  | done => exact ⟨_, fun y h => by cases h⟩
  | read l k ih => exact ⟨_, fun y h => by cases h with | read _ _ v => exact ih v⟩
  | write l v k ih => exact ⟨_, fun y h => by cases h with | write => exact ih⟩

/-- no schedule runs forever -/
theorem Conf.acc {N : ℕ} (c : Conf N) : Acc (fun d e => Conf.Step e d) c := by
  have key : ∀ (k : ℕ), k ≤ N → ∀ (ps : Fin N → Prog) (s : Store),
      (∀ i : Fin N, k ≤ i.val → ps i = .done) → Acc (fun d e => Conf.Step e d) (ps, s) := by
    intro k
    induction k with
    | zero =>
      intro _ ps s h
      refine ⟨_, ?_⟩
      rintro d hd
      cases hd with
      | mk _ _ i p' s' hs =>
        rw [h i (Nat.zero_le _)] at hs
        cases hs
    | succ k ih =>
      intro hk ps s h
      -- induction on what thread `k` still has to do, then on the threads before it
      have hkN : k < N := hk
      have : ∀ p : Prog, ∀ (ps : Fin N → Prog) (s : Store), ps ⟨k, hkN⟩ = p →
          (∀ i : Fin N, k + 1 ≤ i.val → ps i = .done) →
          Acc (fun d e => Conf.Step e d) (ps, s) := by
        intro p
        induction Prog.next_acc p with
        | intro p _ ihp =>
          intro ps s hp hd
          -- inner induction: on the configuration in which thread `k` has finished
          have hin : Acc (fun d e => Conf.Step e d)
              ((Function.update ps ⟨k, hkN⟩ .done, s) : Conf N) := by
            refine ih (le_of_lt hkN) _ _ ?_
            intro i hi
            by_cases hik : i = ⟨k, hkN⟩
            · subst hik; simp
            · rw [Function.update_of_ne hik]
              refine hd i ?_
              have : i.val ≠ k := fun h => hik (Fin.ext h)
              omega
          generalize hc : ((Function.update ps ⟨k, hkN⟩ .done, s) : Conf N) = c at hin
          induction hin generalizing ps s with
          | intro c _ ihc =>
            refine ⟨_, ?_⟩
            intro d hstep
            cases hstep with
            | mk _ _ i p' s' hs =>
              by_cases hik : i = ⟨k, hkN⟩
              · subst hik
                refine ihp p' ?_ _ _ (by simp) ?_
                · rw [hp] at hs
                  cases hs with
                  | read => exact .read _ _ _
                  | write => exact .write _ _ _
                · intro j hj
                  have : j ≠ ⟨k, hkN⟩ := fun h => by rw [h] at hj; simp at hj
                  rw [Function.update_of_ne this]
                  exact hd j hj
              · refine ihc (Function.update (Function.update ps ⟨k, hkN⟩ .done) i p', s') ?_ _ _ ?_ ?_ ?_
                · rw [← hc]
                  refine Conf.Step.mk _ _ _ _ _ ?_
                  rw [Function.update_of_ne hik]
                  exact hs
                · rw [Function.update_of_ne (Ne.symm hik)]
                  exact hp
                · intro j hj
                  by_cases hji : j = i
                  · subst hji
                    rw [hd j hj] at hs
                    cases hs
                  · rw [Function.update_of_ne hji]
                    exact hd j hj
                · rw [Function.update_comm hik]
      exact this _ ps s rfl h
  exact key N (le_refl _) c.1 c.2 (fun i hi => absurd i.isLt (by omega))

/-- unless all threads have finished, one of them can make a step -/
theorem Conf.progress {N : ℕ} (c : Conf N) : c.Finished ∨ ∃ d, Conf.Step c d := by
  by_cases h : c.Finished
  · exact Or.inl h
  · right
    unfold Conf.Finished at h
    push Not at h
    obtain ⟨i, hi⟩ := h
    obtain ⟨ps, s⟩ := c
    cases hp : ps i with
    | done => exact absurd hp hi
    | read l k => exact ⟨_, .mk ps s i _ _ (by rw [hp]; exact .read l k s)⟩
    | write l v k => exact ⟨_, .mk ps s i _ _ (by rw [hp]; exact .write l v k s)⟩

/-- every configuration can be run to the end -/
theorem Conf.finishes {N : ℕ} (c : Conf N) : ∃ d, Conf.Run c d ∧ d.Finished := by
  induction Conf.acc c with
  | intro c _ ih =>
    rcases c.progress with h | ⟨d, hd⟩
    · exact ⟨c, .refl, h⟩
    · obtain ⟨e, he, hf⟩ := ih d hd
      exact ⟨e, .head hd he, hf⟩

theorem readAll_within {F : Set Loc} {k : Store → Prog} (hk : ∀ s, (k s).Within F) (ls : List Loc)
    (h : ∀ l ∈ ls, l ∈ F) : ∀ acc, (readAll k ls acc).Within F := by
  induction ls with
  | nil => intro acc; exact hk acc
  | cons l ls ih =>
    intro acc
    exact .read (h l (by simp)) fun v => ih (fun x hx => h x (by simp [hx])) _

theorem writeAll_within {F : Set Loc} (s : Store) (ls : List Loc) (h : ∀ l ∈ ls, l ∈ F) :
    (writeAll s ls).Within F := by
  induction ls with
  | nil => exact .done
  | cons l ls ih => exact .write (h l (by simp)) (ih fun x hx => h x (by simp [hx]))

theorem readAll_exec (k : Store → Prog) (ls : List Loc) : ∀ (acc s : Store),
    ∃ acc', (readAll k ls acc).exec s = (k acc').exec s ∧ (∀ l ∈ ls, acc' l = s l) ∧
      ∀ l, l ∉ ls → acc' l = acc l := by
  induction ls with
  | nil => intro acc s; exact ⟨acc, rfl, by simp, fun _ _ => rfl⟩
  | cons l ls ih =>
    intro acc s
    obtain ⟨acc', h1, h2, h3⟩ := ih (Function.update acc l (s l)) s
    refine ⟨acc', h1, ?_, ?_⟩
    · intro x hx
      by_cases hxl : x ∈ ls
      · exact h2 x hxl
      · have : x = l := by simpa [hxl] using hx
        subst this
        rw [h3 x hxl]; simp
    · intro x hx
      simp only [List.mem_cons, not_or] at hx
      rw [h3 x hx.2, Function.update_of_ne hx.1]

theorem writeAll_exec (v : Store) (ls : List Loc) : ∀ (s : Store),
    (∀ l ∈ ls, (writeAll v ls).exec s l = v l) ∧ ∀ l, l ∉ ls → (writeAll v ls).exec s l = s l := by
  induction ls with
  | nil => intro s; exact ⟨by simp, fun _ _ => rfl⟩
  | cons l ls ih =>
    intro s
    obtain ⟨h1, h2⟩ := ih (Function.update s l (v l))
    refine ⟨?_, ?_⟩
    · intro x hx
      by_cases hxl : x ∈ ls
      · exact h1 x hxl
      · have : x = l := by simpa [hxl] using hx
        subst this
        simp only [writeAll, Prog.exec]
        rw [h2 x hxl]; simp
    · intro x hx
      simp only [List.mem_cons, not_or] at hx
      simp only [writeAll, Prog.exec]
      rw [h2 x hx.2, Function.update_of_ne hx.1]

end Ecm
