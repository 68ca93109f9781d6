/-
  Model of the parallel loops over the points (src/ecmech/ECMech_evptnWrap.h:314-386: `RAJA::forall` with
  the OpenMP policy at line 316 and the CUDA/HIP policy at line 343).

  In Model/Batch.lean the body of the loop is one indivisible unit.  Here it is a program that reads and
  writes single elements of the caller's arrays, and the points are threads whose reads and writes may be
  interleaved in any way (sequentially consistent memory, one element at a time).  The read-only
  arguments are shared and never written, so reads from them are not steps.  A failing point
  (ECMECH_FAIL inside a parallel region) is not modelled: the theorems speak about calls in which every
  point succeeds.
-/
import Verif.Model.Batch

namespace Ecm
open Classical

/-- the arrays that getResponseECM writes (ECMech_evptnWrap.h:290-295) -/
inductive RW where
  | eInt | stress | hist | tkelv | sdd | mtan
  deriving DecidableEq

/-- an element of one of these arrays -/
abbrev Loc := RW × ℕ

/-- the contents of all elements -/
abbrev Store := Loc → ℝ

/-- what one thread still has to do: the values it has read decide how it goes on -/
inductive Prog where
  | done
  | read (l : Loc) (k : ℝ → Prog)
  | write (l : Loc) (v : ℝ) (k : Prog)

/-- the contents after a thread has run alone from start to end -/
noncomputable def Prog.exec : Prog → Store → Store
  | .done, s => s
  | .read l k, s => (k (s l)).exec s
  | .write l v k, s => k.exec (Function.update s l v)

/-- every element the thread may read or write is in `F` -/
inductive Prog.Within (F : Set Loc) : Prog → Prop
  | done : Prog.Within F .done
  | read {l k} : l ∈ F → (∀ v, Prog.Within F (k v)) → Prog.Within F (.read l k)
  | write {l v k} : l ∈ F → Prog.Within F k → Prog.Within F (.write l v k)

/-- one step of one thread -/
inductive Prog.Step : Prog → Store → Prog → Store → Prop
  | read (l : Loc) (k : ℝ → Prog) (s : Store) : Prog.Step (.read l k) s (k (s l)) s
  | write (l : Loc) (v : ℝ) (k : Prog) (s : Store) :
      Prog.Step (.write l v k) s k (Function.update s l v)

/-- the threads (thread `i` works on point `i`) and the memory they share -/
abbrev Conf (N : ℕ) := (Fin N → Prog) × Store

/-- the scheduler picks a thread, which makes one step -/
inductive Conf.Step {N : ℕ} : Conf N → Conf N → Prop
  | mk (ps : Fin N → Prog) (s : Store) (i : Fin N) (p' : Prog) (s' : Store) :
      Prog.Step (ps i) s p' s' → Conf.Step (ps, s) (Function.update ps i p', s')

/-- any number of steps under any schedule -/
abbrev Conf.Run {N : ℕ} : Conf N → Conf N → Prop := Relation.ReflTransGen Conf.Step

/-- all threads have reached the end -/
def Conf.Finished {N : ℕ} (c : Conf N) : Prop := ∀ i, c.1 i = .done

/-- the arrays of the caller as elements; a null tangent pointer has no elements -/
def BatchMem.toStore (b : BatchMem) : Store
  | (.eInt, p) => b.eInt.val p
  | (.stress, p) => b.stress.val p
  | (.hist, p) => b.hist.val p
  | (.tkelv, p) => b.tkelv.val p
  | (.sdd, p) => b.sdd.val p
  | (.mtan, p) => match b.mtan with
    | some t => t.val p
    | none => 0

/-- arrays of the same lengths with the contents `s` -/
def BatchMem.withStore (b : BatchMem) (s : Store) : BatchMem where
  eInt := ⟨b.eInt.len, fun p => s (.eInt, p)⟩
  stress := ⟨b.stress.len, fun p => s (.stress, p)⟩
  hist := ⟨b.hist.len, fun p => s (.hist, p)⟩
  tkelv := ⟨b.tkelv.len, fun p => s (.tkelv, p)⟩
  sdd := ⟨b.sdd.len, fun p => s (.sdd, p)⟩
  mtan := b.mtan.map fun t => ⟨t.len, fun p => s (.mtan, p)⟩

/-- the elements behind the pointers handed to getResponseSngl for point `i`
    (ECMech_evptnWrap.h:317-330) -/
def pointLocs (nHist : ℕ) (st : Strides) (b : BatchMem) (i : ℕ) : List Loc :=
  [(.eInt, offU st.intEng i)]
    ++ (List.range 7).map (fun k => (.stress, offU st.stress i + k))
    ++ (List.range nHist).map (fun k => (.hist, offU st.history i + k))
    ++ [(.tkelv, offU st.tkelv i)]
    ++ (List.range 2).map (fun k => (.sdd, offU st.sdd i + k))
    ++ if b.mtan.isSome then (List.range 36).map (fun k => (.mtan, 36 * i + k)) else []

/-- read the listed elements, then go on with what was read -/
noncomputable def readAll (k : Store → Prog) : List Loc → Store → Prog
  | [], acc => k acc
  | l :: ls, acc => .read l fun v => readAll k ls (Function.update acc l v)

/-- write the listed elements -/
def writeAll (s : Store) : List Loc → Prog
  | [] => .done
  | l :: ls => .write l (s l) (writeAll s ls)

/-- the second half of `pointProg`: update what has been read, write all elements behind the pointers -/
noncomputable def pointThen {n nH : ℕ} (X : Ext) (M : Material n nH) (st : Strides) (a : BatchIn)
    (b : BatchMem) (i : ℕ) (s : Store) : Prog :=
  match getResponseSngl X M (batchInp st a i) (batchMem st (b.withStore s) i) with
  | .ok m => writeAll ((b.withStore s).store st i m).toStore (pointLocs (numHist nH n) st b i)
  | _ => .done

/-- one way to carry out the body of the loop for point `i` (ECMech_evptnWrap.h:317-331): read all
    elements behind the pointers, update, write all elements behind the pointers.  The code reads and
    writes in between; the theorems hold for every thread with the same accesses and result. -/
noncomputable def pointProg {n nH : ℕ} (X : Ext) (M : Material n nH) (st : Strides) (a : BatchIn)
    (b : BatchMem) (i : ℕ) : Prog :=
  readAll (pointThen X M st a b i) (pointLocs (numHist nH n) st b i) fun _ => 0

end Ecm
