/- Lemmas about windows of flat arrays and about the batch loop. -/
import Verif.Model.Batch
import Verif.SpecApi
import Verif.Lemmas.Response

namespace Ecm
open Spec Classical

theorem Buf.ext' {a b : Buf} (h1 : a.len = b.len) (h2 : a.val = b.val) : a = b := by
  cases a; cases b; simp_all

theorem Buf.put_val_out {k : ℕ} (b : Buf) (o : ℕ) (v : Vec k) (a : ℕ) (h : ¬ (o ≤ a ∧ a < o + k)) :
    (b.put o v).val a = b.val a := by
  simp only [Buf.put]; rw [dif_neg h]

theorem Buf.put_val_in {k : ℕ} (b : Buf) (o : ℕ) (v : Vec k) (j : Fin k) :
    (b.put o v).val (o + j) = v j := by
  simp only [Buf.put]
  rw [dif_pos ⟨by omega, by omega⟩]
  congr 1
  ext
  simp

theorem Buf.win_put_same {k : ℕ} (b : Buf) (o : ℕ) (v : Vec k) : (b.put o v).win o k = v := by
  funext j; exact Buf.put_val_in b o v j

theorem Buf.win_put_disj {k k' : ℕ} (b : Buf) (o o' : ℕ) (v : Vec k)
    (h : o + k ≤ o' ∨ o' + k' ≤ o) : (b.put o v).win o' k' = b.win o' k' := by
  funext j
  exact Buf.put_val_out b o v _ (by have := j.isLt; omega)

theorem Buf.put_comm {k k' : ℕ} (b : Buf) (o o' : ℕ) (v : Vec k) (v' : Vec k')
    (h : o + k ≤ o' ∨ o' + k' ≤ o) : (b.put o v).put o' v' = (b.put o' v').put o v := by
  refine Buf.ext' rfl ?_
  funext a
  simp only [Buf.put]
  by_cases h1 : o ≤ a ∧ a < o + k
  · have h2 : ¬ (o' ≤ a ∧ a < o' + k') := by omega
    rw [dif_neg h2, dif_pos h1, dif_pos h1]
  · rw [dif_neg h1]
    split_ifs <;> rfl

theorem matOfWin_winOfMat (t : Mat 6 6) : matOfWin (winOfMat t) = t := by
  ext p q
  unfold matOfWin winOfMat
  have h1 : (6 * p.val + q.val) / 6 = p.val := by omega
  have h2 : (6 * p.val + q.val) % 6 = q.val := by omega
  congr 1
  · exact Fin.ext h1
  · exact Fin.ext h2

theorem offU_eq {s i : ℕ} (h : s * i < 2 ^ 32) : offU s i = s * i := Nat.mod_eq_of_lt h

/-- windows of different points are apart -/
theorem windows_apart {s w i j : ℕ} (hw : w ≤ s) (h : i ≠ j) :
    s * i + w ≤ s * j ∨ s * j + w ≤ s * i := by
  rcases lt_or_gt_of_ne h with h | h
  · left
    calc s * i + w ≤ s * i + s := by omega
      _ = s * (i + 1) := by ring
      _ ≤ s * j := Nat.mul_le_mul_left _ h
  · right
    calc s * j + w ≤ s * j + s := by omega
      _ = s * (j + 1) := by ring
      _ ≤ s * i := Nat.mul_le_mul_left _ h

/-- the documented minimum for each stride -/
structure Strides.Accepted (nHist : ℕ) (st : Strides) : Prop where
  defRate : 7 ≤ st.defRate
  spin : 3 ≤ st.spin
  volRatio : 4 ≤ st.volRatio
  intEng : 1 ≤ st.intEng
  stress : 7 ≤ st.stress
  history : nHist ≤ st.history
  tkelv : 1 ≤ st.tkelv
  sdd : 2 ≤ st.sdd

/-- no offset of point `i` leaves 32 bits -/
structure Strides.NoWrap (st : Strides) (i : ℕ) : Prop where
  defRate : st.defRate * i < 2 ^ 32
  spin : st.spin * i < 2 ^ 32
  volRatio : st.volRatio * i < 2 ^ 32
  intEng : st.intEng * i < 2 ^ 32
  stress : st.stress * i < 2 ^ 32
  history : st.history * i < 2 ^ 32
  tkelv : st.tkelv * i < 2 ^ 32
  sdd : st.sdd * i < 2 ^ 32

variable {n nH : ℕ}

/-- a successful or failing update keeps the tangent present or absent -/
theorem getResponseSngl_mtan {X : Ext} {M : Material n nH} {inp : Inputs} {m : Mem nH n} :
    (∀ m', getResponseSngl X M inp m = .ok m' → m'.mtan.isSome = m.mtan.isSome) ∧
    (∀ s m', getResponseSngl X M inp m = .fail s m' → m'.mtan.isSome = m.mtan.isSome) := by
  unfold getResponseSngl
  cases hs : Step.setup M inp m with
  | undef w => simp
  | fail s => simp only [reduceCtorEq, false_implies, implies_true, Res.fail.injEq, true_and]
              rintro s m' ⟨-, rfl⟩; rfl
  | ok a =>
    obtain ⟨hU, P⟩ := a
    simp only [Step.run]
    split
    · simp only [reduceCtorEq, false_implies, implies_true, Res.fail.injEq, true_and]
      rintro s m' ⟨-, rfl⟩; rfl
    · have ht : ∀ t, Step.tangent X (Step.eosUpdate M inp m).bulkNew P (Step.solve X inp P).x
          m.mtan.isSome = some t → t.isSome = m.mtan.isSome := by
        intro t h
        unfold Step.tangent at h
        split_ifs at h with hw
        · rw [hw]
          simp only [Option.map_eq_some_iff] at h
          obtain ⟨_, _, rfl⟩ := h
          rfl
        · cases h
          simpa using hw
      split
      · simp only [reduceCtorEq, false_implies, implies_true, Res.fail.injEq, true_and]
        rintro s m' ⟨-, rfl⟩; rfl
      · next t htt =>
        cases M.el.getGmod with
        | undef w => simp
        | fail s => simp only [reduceCtorEq, false_implies, implies_true, Res.fail.injEq, true_and]
                    rintro s m' ⟨-, rfl⟩; exact ht t htt
        | ok g => simp only [reduceCtorEq, false_implies, implies_true, Res.ok.injEq, and_true]
                  rintro m' rfl; exact ht t htt

theorem Safe.store {nHist : ℕ} {st : Strides} {a : BatchIn} {b : BatchMem} {i j : ℕ}
    (h : Safe nHist st a b i) (m : Mem nH n) : Safe nHist st a (b.store st j m) i := by
  refine ⟨h.defRate, h.spin, h.volRatio, h.eInt, h.stress, h.hist, h.tkelv, h.sdd, ?_⟩
  intro t ht
  unfold BatchMem.store at ht
  simp only at ht
  cases hb : b.mtan with
  | none => rw [hb] at ht; simp at ht
  | some t0 =>
    have := h.mtan t0 hb
    rw [hb] at ht
    cases hm : m.mtan with
    | none => rw [hm] at ht; cases ht; exact this
    | some v => rw [hm] at ht; cases ht; exact this

theorem batchMem_store_same {st : Strides} {b : BatchMem} {i : ℕ} {m : Mem nH n}
    (hm : m.mtan.isSome = b.mtan.isSome) : batchMem st (b.store st i m) i = m := by
  cases m with
  | mk e s h t sd mt =>
  unfold batchMem BatchMem.store
  congr 1
  · exact Buf.put_val_in (k := 1) b.eInt (offU st.intEng i) (fun _ => e) 0
  · exact Buf.win_put_same _ _ _
  · exact Buf.win_put_same _ _ _
  · exact Buf.put_val_in (k := 1) b.tkelv (offU st.tkelv i) (fun _ => t) 0
  · exact Buf.win_put_same _ _ _
  · cases hb : b.mtan with
    | none =>
      rw [hb] at hm
      cases mt with
      | none => rfl
      | some _ => simp at hm
    | some t0 =>
      rw [hb] at hm
      cases mt with
      | none => simp at hm
      | some v =>
        simp only [Option.map_some, Buf.win_put_same, matOfWin_winOfMat]

theorem batchMem_store_diff {st : Strides} {b : BatchMem} {i j : ℕ} {m : Mem nH n}
    (hA : st.Accepted (numHist nH n)) (hi : st.NoWrap i) (hj : st.NoWrap j) (hij : i ≠ j) :
    (batchMem st (b.store st i m) j : Mem nH n) = batchMem st b j := by
  unfold batchMem BatchMem.store
  have h1 := windows_apart hA.intEng hij
  have h2 := windows_apart hA.stress hij
  have h3 := windows_apart hA.history hij
  have h4 := windows_apart hA.tkelv hij
  have h5 := windows_apart hA.sdd hij
  have h6 := windows_apart (le_refl 36) hij
  simp only [offU_eq hi.intEng, offU_eq hi.stress, offU_eq hi.history, offU_eq hi.tkelv,
    offU_eq hi.sdd, offU_eq hj.intEng, offU_eq hj.stress, offU_eq hj.history, offU_eq hj.tkelv,
    offU_eq hj.sdd]
  congr 1
  · exact Buf.put_val_out _ _ _ _ (by omega)
  · exact Buf.win_put_disj _ _ _ _ h2
  · exact Buf.win_put_disj _ _ _ _ h3
  · exact Buf.put_val_out _ _ _ _ (by omega)
  · exact Buf.win_put_disj _ _ _ _ h5
  · cases b.mtan with
    | none => rfl
    | some t0 =>
      cases m.mtan with
      | none => rfl
      | some v =>
        simp only [Option.map_some, Buf.win_put_disj _ _ _ _ h6]

theorem store_comm {st : Strides} {b : BatchMem} {i j : ℕ} {m m' : Mem nH n}
    (hA : st.Accepted (numHist nH n)) (hi : st.NoWrap i) (hj : st.NoWrap j) (hij : i ≠ j) :
    (b.store st i m).store st j m' = (b.store st j m').store st i m := by
  unfold BatchMem.store
  have h1 := windows_apart hA.intEng hij
  have h2 := windows_apart hA.stress hij
  have h3 := windows_apart hA.history hij
  have h4 := windows_apart hA.tkelv hij
  have h5 := windows_apart hA.sdd hij
  have h6 := windows_apart (le_refl 36) hij
  simp only [offU_eq hi.intEng, offU_eq hi.stress, offU_eq hi.history, offU_eq hi.tkelv,
    offU_eq hi.sdd, offU_eq hj.intEng, offU_eq hj.stress, offU_eq hj.history, offU_eq hj.tkelv,
    offU_eq hj.sdd]
  congr 1
  · exact Buf.put_comm _ _ _ _ _ h1
  · exact Buf.put_comm _ _ _ _ _ h2
  · exact Buf.put_comm _ _ _ _ _ h3
  · exact Buf.put_comm _ _ _ _ _ h4
  · exact Buf.put_comm _ _ _ _ _ h5
  · cases b.mtan with
    | none => rfl
    | some t0 =>
      cases m.mtan with
      | none => cases m'.mtan <;> rfl
      | some v =>
        cases m'.mtan with
        | none => rfl
        | some v' => exact congrArg some (Buf.put_comm _ _ _ _ _ h6)

theorem store_mtan_isSome {st : Strides} {b : BatchMem} {i : ℕ} {m : Mem nH n} :
    (b.store st i m).mtan.isSome = b.mtan.isSome := by
  unfold BatchMem.store
  cases b.mtan with
  | none => rfl
  | some t => cases m.mtan <;> rfl

/-- what the loop does, point by point -/
theorem batchLoop_spec {X : Ext} {M : Material n nH} {st : Strides} {a : BatchIn}
    (hA : st.Accepted (numHist nH n)) (l : List ℕ) : ∀ (b : BatchMem), l.Nodup →
    (∀ i ∈ l, st.NoWrap i) → (∀ i ∈ l, Safe (numHist nH n) st a b i) →
    match batchLoop X M st a l b with
    | .ok b' => ∃ m : ℕ → Mem nH n,
        (∀ i ∈ l, getResponseSngl X M (batchInp st a i) (batchMem st b i) = .ok (m i)) ∧
        b' = l.foldl (fun c i => c.store st i (m i)) b
    | .fail s b' => ∃ (m : ℕ → Mem nH n) (l1 : List ℕ) (i : ℕ) (l2 : List ℕ) (mf : Mem nH n),
        l = l1 ++ i :: l2 ∧
        (∀ j ∈ l1, getResponseSngl X M (batchInp st a j) (batchMem st b j) = .ok (m j)) ∧
        getResponseSngl X M (batchInp st a i) (batchMem st b i) = .fail s mf ∧
        b' = (l1.foldl (fun c i => c.store st i (m i)) b).store st i mf
    | .undef w => ∃ i ∈ l, getResponseSngl X M (batchInp st a i) (batchMem st b i) = .undef w := by
  induction l with
  | nil => intro b _ _ _; exact ⟨fun i => batchMem st b i, by simp, rfl⟩
  | cons i l ih =>
    intro b hnd hW hS
    simp only [batchLoop, batchPoint]
    rw [if_pos (hS i (by simp))]
    cases hr : getResponseSngl X M (batchInp st a i) (batchMem st b i) with
    | undef w => exact ⟨i, by simp, hr⟩
    | fail s m => exact ⟨fun j => batchMem st b j, [], i, l, m, rfl, by simp, hr, rfl⟩
    | ok m =>
      have hni : i ∉ l := (List.nodup_cons.1 hnd).1
      have hview : ∀ j ∈ l, (batchMem st (b.store st i m) j : Mem nH n) = batchMem st b j := by
        intro j hj
        exact batchMem_store_diff hA (hW i (by simp)) (hW j (by simp [hj]))
          (fun h => hni (h ▸ hj))
      have := ih (b.store st i m) (List.nodup_cons.1 hnd).2 (fun j hj => hW j (by simp [hj]))
        (fun j hj => (hS j (by simp [hj])).store m)
      simp only
      cases hl : batchLoop X M st a l (b.store st i m) with
      | undef w =>
        rw [hl] at this
        obtain ⟨j, hj, h⟩ := this
        rw [hview j hj] at h
        exact ⟨j, by simp [hj], h⟩
      | fail s b' =>
        rw [hl] at this
        obtain ⟨mm, l1, j, l2, mf, rfl, h1, h2, rfl⟩ := this
        refine ⟨Function.update mm i m, i :: l1, j, l2, mf, rfl, ?_, ?_, ?_⟩
        · intro k hk
          rcases List.mem_cons.1 hk with rfl | hk
          · rw [hr]; simp
          · have hki : k ≠ i := fun h => hni (h ▸ by simp [hk])
            rw [Function.update_of_ne hki, ← h1 k hk, hview k (by simp [hk])]
        · rw [← h2, hview j (by simp)]
        · rw [List.foldl_cons]
          congr 1
          simp only [Function.update_self]
          refine List.foldl_ext _ _ _ ?_
          intro c k hk
          have hki : k ≠ i := fun h => hni (h ▸ by simp [hk])
          rw [Function.update_of_ne hki]
      | ok b' =>
        rw [hl] at this
        obtain ⟨mm, h1, rfl⟩ := this
        refine ⟨Function.update mm i m, ?_, ?_⟩
        · intro k hk
          rcases List.mem_cons.1 hk with rfl | hk
          · rw [hr]; simp
          · have hki : k ≠ i := fun h => hni (h ▸ hk)
            rw [Function.update_of_ne hki, ← h1 k hk, hview k hk]
        · rw [List.foldl_cons]
          simp only [Function.update_self]
          refine List.foldl_ext _ _ _ ?_
          intro c k hk
          have hki : k ≠ i := fun h => hni (h ▸ hk)
          rw [Function.update_of_ne hki]

theorem foldl_isSome {st : Strides} {m : ℕ → Mem nH n} (l : List ℕ) : ∀ (b : BatchMem),
    (l.foldl (fun c i => c.store st i (m i)) b).mtan.isSome = b.mtan.isSome := by
  induction l with
  | nil => intro b; rfl
  | cons i l ih => intro b; rw [List.foldl_cons, ih, store_mtan_isSome]

/-- a point that is not among those processed keeps its data -/
theorem foldl_view_out {st : Strides} {m : ℕ → Mem nH n} (hA : st.Accepted (numHist nH n))
    (l : List ℕ) {j : ℕ} (hj : st.NoWrap j) : ∀ (b : BatchMem), (∀ i ∈ l, st.NoWrap i) → j ∉ l →
    (batchMem st (l.foldl (fun c i => c.store st i (m i)) b) j : Mem nH n) = batchMem st b j := by
  induction l with
  | nil => intro b _ _; rfl
  | cons i l ih =>
    intro b hW hn
    rw [List.foldl_cons, ih _ (fun k hk => hW k (by simp [hk])) (fun h => hn (by simp [h]))]
    exact batchMem_store_diff hA (hW i (by simp)) hj (fun h => hn (by simp [h]))

/-- a point that has been processed holds its result -/
theorem foldl_view_in {st : Strides} {m : ℕ → Mem nH n} (hA : st.Accepted (numHist nH n))
    (l : List ℕ) {j : ℕ} : ∀ (b : BatchMem), l.Nodup → (∀ i ∈ l, st.NoWrap i) → j ∈ l →
    (m j).mtan.isSome = b.mtan.isSome →
    (batchMem st (l.foldl (fun c i => c.store st i (m i)) b) j : Mem nH n) = m j := by
  induction l with
  | nil => intro b _ _ h; simp at h
  | cons i l ih =>
    intro b hnd hW hj hs
    rw [List.foldl_cons]
    by_cases h : j ∈ l
    · exact ih _ (List.nodup_cons.1 hnd).2 (fun k hk => hW k (by simp [hk])) h
        (by rw [store_mtan_isSome]; exact hs)
    · have hji : j = i := by simpa [h] using hj
      subst hji
      rw [foldl_view_out hA l (hW j (by simp)) _ (fun k hk => hW k (by simp [hk])) h]
      exact batchMem_store_same hs

/-- the order does not matter -/
theorem foldl_perm {st : Strides} {m : ℕ → Mem nH n} (hA : st.Accepted (numHist nH n))
    {l l' : List ℕ} (hp : l.Perm l') (hW : ∀ i ∈ l, st.NoWrap i) (b : BatchMem) :
    l.foldl (fun c i => c.store st i (m i)) b = l'.foldl (fun c i => c.store st i (m i)) b := by
  refine List.Perm.foldl_eq' hp ?_ b
  intro x hx y hy c
  by_cases h : x = y
  · subst h; rfl
  · exact (store_comm hA (hW x hx) (hW y hy) h)

end Ecm
