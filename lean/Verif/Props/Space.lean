/-
  C95: the memory of the example driver on machines with a GPU.

  The claim: whatever device is asked for, every loop of the driver uses memory its processor can reach, so that the
  program prints what the reference program of C81 prints, and gives back all its memory.  It holds on the CPU and with
  OpenMP.  On the GPU it does not: which machines are fine is determined exactly.
-/
import Verif.Model.Space
import Verif.Props.Driver

namespace Ecm.Props
open Spec Classical

/-! ### What is needed of the machine -/

/-- what the driver needs of the machine: nothing on the host.  On a GPU with CUDA, for the model `voce`, that the device
    reads variables of the main program or that the library was built with the workaround.  On a GPU with HIP, that the
    host uses device addresses and that copies do not mind a wrong direction. -/
def InReach (k : Machine) (B : Build) (c : Case) (device : Strategy) : Prop :=
  device = .gpu → (B.gpu = .cuda ∧ (c = .fccA → B.byValue = true ∨ k.devSeesHost = true)) ∨
    (B.gpu = .hip ∧ k.hostSeesDev = true ∧ k.copyByAddress = true)

/-! ### The loop -/

/-- all four loops of a step have their memory in reach -/
def Place.Fine (P : Place) : Prop :=
  P.busy = true → reachSetup P.k P.B P.kernels P.d P.h = true ∧ reachModel P.k P.B P.model P.d P.h = true ∧
    reachRetrieve P.k P.B P.kernels P.d P.h = true ∧ reachAverage P.k P.B P.kernels P.d P.h = true

theorem Place.Fine.guards {P : Place} (h : Place.Fine P) :
    (P.busy && !reachSetup P.k P.B P.kernels P.d P.h) = false ∧
    (P.busy && !reachModel P.k P.B P.model P.d P.h) = false ∧
    (P.busy && !reachRetrieve P.k P.B P.kernels P.d P.h) = false ∧
    (P.busy && !reachAverage P.k P.B P.kernels P.d P.h) = false := by
  unfold Place.Fine at h
  cases hb : P.busy
  · simp
  · obtain ⟨h1, h2, h3, h4⟩ := h hb
    simp [h1, h2, h3, h4]

theorem spaceStep_fine {T : MType} {P : Place} (hP : Place.Fine P) (X : Ext) (mm : MM T) (dt : ℝ) (nsv N : ℕ)
    (m : DrvMem) : spaceStep P X mm dt nsv N m = drvStepAll X mm dt nsv N m := by
  obtain ⟨h1, h2, h3, h4⟩ := hP.guards
  unfold spaceStep drvStepAll
  rw [h1, h2, h3, h4]
  simp only [Bool.false_eq_true, if_false]
  cases outLoop (setupPoint dt nsv) N m with
  | undef w => rfl
  | fail e => rfl
  | ok m1 =>
    dsimp only
    cases mm.getResponse X (m1.batchIn dt) N m1.batchMem with
    | undef w => rfl
    | fail e b => rfl
    | ok b =>
      dsimp only
      cases outLoop (retrievePoint nsv) N (m1.withBatch b) <;> rfl

theorem spaceLoop_fine {T : MType} {P : Place} (hP : Place.Fine P) (X : Ext) (mm : MM T) (dt : ℝ) (nsv N j : ℕ)
    (m : DrvMem) (out : List (Vec 6)) :
    spaceLoop P X mm dt nsv N j m out = drvLoop X mm dt nsv N j m out := by
  induction j generalizing m out with
  | zero => rfl
  | succ j ih =>
    unfold spaceLoop drvLoop
    rw [spaceStep_fine hP]
    cases drvStepAll X mm dt nsv N m with
    | ok m' => exact ih _ _
    | fail e m' => rfl
    | undef w => rfl

theorem setupPoint_not_fail (dt : ℝ) (nsv i : ℕ) (m : DrvMem) (e : String) : setupPoint dt nsv i m ≠ .fail e := by
  unfold setupPoint
  split_ifs
  · unfold drvSetup drvVol
    dsimp only
    split_ifs <;> simp [Out.bind]
  · simp

theorem setupLoop_not_fail (dt : ℝ) (nsv N : ℕ) (m : DrvMem) (e : String) :
    outLoop (setupPoint dt nsv) N m ≠ .fail e := by
  induction N with
  | zero => simp [outLoop]
  | succ i ih =>
    unfold outLoop
    cases h : outLoop (setupPoint dt nsv) i m with
    | undef w => simp [Out.bind]
    | fail e' =>
      rw [h] at ih
      exact ih
    | ok a => exact setupPoint_not_fail dt nsv i a e

/-- with points, and the model's memory out of reach, the first step is undefined -/
theorem spaceLoop_undef {T : MType} {P : Place} (hb : P.busy = true) (hm : reachModel P.k P.B P.model P.d P.h = false)
    (X : Ext) (mm : MM T) (dt : ℝ) (nsv N j : ℕ) (m : DrvMem) (out : List (Vec 6)) :
    ∃ w, spaceLoop P X mm dt nsv N (j + 1) m out = .undef w := by
  unfold spaceLoop
  have : ∃ w, spaceStep P X mm dt nsv N m = .undef w := by
    unfold spaceStep
    by_cases h1 : (P.busy && !reachSetup P.k P.B P.kernels P.d P.h) = true
    · exact ⟨_, if_pos h1⟩
    · rw [if_neg h1]
      cases h : outLoop (setupPoint dt nsv) N m with
      | undef w => exact ⟨w, rfl⟩
      | fail e => exact absurd h (setupLoop_not_fail dt nsv N m e)
      | ok m1 => exact ⟨_, if_pos (by rw [hb, hm]; rfl)⟩
  obtain ⟨w, hw⟩ := this
  rw [hw]
  exact ⟨w, rfl⟩

/-! ### The memory -/

/-- the program gets to its time loop, all memory in reach, and gives everything back at the end -/
structure Sound (k : Machine) (B : Build) (sp : Space) (f : Dealloc) (kernels model : Strategy) (busy : Bool)
    (p d : Ptrs) (h h' h'' : Heap) : Prop where
  init : spaceInit k sp busy .empty = .ok (p, h)
  mirror : spaceMirror k (decide (B.gpu = .hip ∧ kernels = .gpu)) busy p h = .ok (d, h')
  fine : Place.Fine ⟨k, B, kernels, model, d, h', busy⟩
  free : spaceFree f (decide (B.gpu = .hip ∧ kernels = .gpu)) p d h' = .ok h''
  released : h''.live = []

/-- addresses of arrays allocated one after the other -/
def ptrsFrom (n : ℕ) : Ptrs := ⟨n, n + 1, n + 2, n + 3, n + 4, n + 5, n + 6, n + 7, n + 8, n + 9, n + 10⟩

/-- a heap with blocks `0 .. n-1` of one kind -/
def blocks (sp : Space) (n : ℕ) : List (ℕ × Space) := (List.range n).reverse.map fun i => (i, sp)

theorem sound_host (k : Machine) (B : Build) (kernels model : Strategy) (hk : kernels ≠ .gpu) (hm : model ≠ .gpu)
    (busy : Bool) : Sound k B .host .delete kernels model busy (ptrsFrom 0) (ptrsFrom 0) ⟨blocks .host 11, 11⟩
      ⟨blocks .host 11, 11⟩ ⟨[], 11⟩ := by
  have hp : procOf B kernels = .host := if_neg fun h => hk h.1
  have hq : procOf B model = .host := if_neg fun h => hm h.1
  have hmir : decide (B.gpu = .hip ∧ kernels = .gpu) = false := by simp [hk]
  refine ⟨?_, ?_, fun _ => ⟨?_, ?_, ?_, ?_⟩, ?_, rfl⟩
  · cases busy <;> rfl
  · rw [hmir]; rfl
  · unfold reachSetup; dsimp only; rw [hp]; rfl
  · unfold reachModel; dsimp only; rw [hq]
    show (true && (B.byValue || decide (B.gpu = .hip) || true)) = true
    simp
  · unfold reachRetrieve; dsimp only; rw [hp]; rfl
  · unfold reachAverage; dsimp only; rw [hp]; rfl
  · rw [hmir]; rfl

theorem sound_cuda (k : Machine) (B : Build) (model : Strategy) (hB : B.gpu = .cuda)
    (busy : Bool) (hm : busy = true → model = .gpu → B.byValue = true ∨ k.devSeesHost = true) :
    Sound k B .managed .cudaFree .gpu model busy (ptrsFrom 0) (ptrsFrom 0) ⟨blocks .managed 11, 11⟩
      ⟨blocks .managed 11, 11⟩ ⟨[], 11⟩ := by
  have hp : procOf B .gpu = .device := if_pos ⟨rfl, by rw [hB]; decide⟩
  have hmir : decide (B.gpu = .hip ∧ Strategy.gpu = .gpu) = false := by rw [hB]; rfl
  refine ⟨?_, ?_, fun hb => ⟨?_, ?_, ?_, ?_⟩, ?_, rfl⟩
  · cases busy <;> rfl
  · rw [hmir]; rfl
  · unfold reachSetup; dsimp only; rw [hp]; rfl
  · unfold reachModel; dsimp only
    cases hq : procOf B model
    · show (true && (B.byValue || decide (B.gpu = .hip) || true)) = true
      simp
    · have : model = .gpu := by
        by_contra h
        rw [procOf, if_neg fun h' => h h'.1] at hq
        cases hq
      show (true && (B.byValue || decide (B.gpu = .hip) || k.devSeesHost)) = true
      rcases hm hb this with h | h <;> simp [h]
  · unfold reachRetrieve; dsimp only; rw [hp]; rfl
  · unfold reachAverage; dsimp only; rw [hp]; rfl
  · rw [hmir]; rfl

/-- HIP: `sp` is the memory the arrays of the host are allocated in -/
theorem sound_hip (k : Machine) (B : Build) (sp : Space) (f : Dealloc) (model : Strategy) (hB : B.gpu = .hip)
    (busy : Bool) (hs : sp = .host ∧ f = .delete ∨
      sp = .device ∧ f = .hipFree ∧ (busy = true → k.hostSeesDev = true ∧ k.copyByAddress = true))
    (hm : busy = true → model ≠ .gpu → k.hostSeesDev = true) :
    Sound k B sp f .gpu model busy (ptrsFrom 0) (ptrsFrom 11) ⟨blocks sp 11, 11⟩
      ⟨(blocks .device 11).map (fun b => (b.1 + 11, b.2)) ++ blocks sp 11, 22⟩ ⟨[], 22⟩ := by
  have hp : procOf B .gpu = .device := if_pos ⟨rfl, by rw [hB]; decide⟩
  have hmir : decide (B.gpu = .hip ∧ Strategy.gpu = .gpu) = true := by rw [hB]; rfl
  have hmod : busy = true → reachModel k B model (ptrsFrom 11)
      ⟨(blocks .device 11).map (fun b => (b.1 + 11, b.2)) ++ blocks sp 11, 22⟩ = true := by
    intro hb
    unfold reachModel
    rw [hB]
    cases hq : procOf B model
    · have : model ≠ .gpu := by
        rintro rfl
        rw [hp] at hq
        cases hq
      have h1 := hm hb this
      obtain ⟨k1, k2, k3⟩ := k
      cases h1
      show (true && (B.byValue || true || true)) = true
      simp
    · show (true && (B.byValue || true || k.devSeesHost)) = true
      simp
  refine ⟨?_, ?_, fun hb => ⟨?_, hmod hb, ?_, ?_⟩, ?_, rfl⟩
  · rcases hs with ⟨rfl, rfl⟩ | ⟨rfl, rfl, h⟩
    · cases busy <;> rfl
    · cases busy
      · rfl
      · obtain ⟨k1, k2, k3⟩ := k
        cases (h rfl).1
        rfl
  · rw [hmir]
    rcases hs with ⟨rfl, rfl⟩ | ⟨rfl, rfl, h⟩
    · cases busy <;> rfl
    · cases busy
      · rfl
      · obtain ⟨k1, k2, k3⟩ := k
        cases (h rfl).2
        rfl
  · unfold reachSetup; dsimp only; rw [hp]; rfl
  · unfold reachRetrieve; dsimp only; rw [hp]; rfl
  · unfold reachAverage; dsimp only; rw [hp]; rfl
  · rw [hmir]
    rcases hs with ⟨rfl, rfl⟩ | ⟨rfl, rfl, h⟩ <;> rfl

/-! ### The program -/

/-- the words in the option file that get accepted -/
theorem Files.words {R : Reader} {u : ℕ → ℝ} {omp gpu : Bool} {files : String → List String} {optionFile : String}
    {c : Case} {pars : List ℝ} {qs : List (Vec 4)} {device : Strategy}
    (h : Files R u omp gpu files optionFile c pars qs device) :
    (c = .fccA ∨ c = .fccB) ∧ (device = .gpu → gpu = true) := by
  obtain ⟨ori, word, props, dev, rest, -, hw, hdev, -⟩ := h.options
  constructor
  · rcases hw with ⟨-, h⟩ | ⟨-, h⟩
    · exact Or.inl h
    · exact Or.inr h
  · intro hg
    rcases hdev with ⟨-, h⟩ | ⟨-, -, h⟩ | ⟨-, h, -⟩
    · rw [h] at hg; cases hg
    · rw [h] at hg; cases hg
    · exact h

/-- the device is determined by the files -/
theorem Files.device {R : Reader} {u : ℕ → ℝ} {omp gpu : Bool} {files : String → List String} {optionFile : String}
    {c c' : Case} {pars pars' : List ℝ} {qs qs' : List (Vec 4)} {device device' : Strategy}
    (h : Files R u omp gpu files optionFile c pars qs device)
    (h' : Files R u omp gpu files optionFile c' pars' qs' device') : device = device' := by
  obtain ⟨ori, word, props, dev, rest, e, -, hdev, -⟩ := h.options
  obtain ⟨ori', word', props', dev', rest', e', -, hdev', -⟩ := h'.options
  rw [e] at e'
  obtain ⟨-, e'⟩ := List.cons.inj e'
  obtain ⟨-, e'⟩ := List.cons.inj e'
  obtain ⟨-, e'⟩ := List.cons.inj e'
  obtain ⟨rfl, -⟩ := List.cons.inj e'
  rcases hdev with ⟨h1, h⟩ | ⟨h1, -, h⟩ | ⟨h1, -, h⟩ <;> rcases hdev' with ⟨h2, h'⟩ | ⟨h2, -, h'⟩ | ⟨h2, -, h'⟩ <;>
    first
    | exact h.trans h'.symm
    | exact absurd (h1.symm.trans h2) (by decide)

/-- the contents the kernels work on are as good as those that were initialised -/
theorem contents_fit {nsv N : ℕ} {m : DrvMem} (mirror : Bool) (gd : ℕ → ℕ → ℝ) (h : DrvFits nsv N m) :
    DrvFits nsv N (spaceContents mirror N gd m) := by
  cases mirror
  · exact h
  · exact ⟨h.offState, h.offTan, h.state, h.vgrad, h.stress, rfl, rfl, rfl, rfl, rfl, rfl, rfl, rfl⟩

theorem contents_fresh {c : Case} {pars : List ℝ} {q : Vec 4} {N i : ℕ} {m : DrvMem} (mirror : Bool)
    (gd : ℕ → ℕ → ℝ) (h : vgradOf m.vgrad i = driverL ∧ Fresh c pars q (drvPoint _ _ m i)) :
    vgradOf (spaceContents mirror N gd m).vgrad i = driverL ∧
      Fresh c pars q (drvPoint _ _ (spaceContents mirror N gd m) i) := by
  cases mirror
  · exact h
  · exact ⟨h.1, ⟨h.2.quat, h.2.hardness, h.2.strain, h.2.rates, h.2.shear, h.2.shearRate, h.2.evals, h.2.vol, h.2.eng,
      h.2.stress⟩⟩

/-- with the memory in reach, the run from the allocation on prints the mean stresses and gives all memory back -/
theorem run_sound {k : Machine} {B : Build} {sp : Space} {f : Dealloc} {kernels model : Strategy} {c : Case} {X : Ext}
    {M : Material c.type.nslip c.type.nH} {tol : ℝ} {pars : List ℝ} {qs : List (Vec 4)} {mm : MM c.type} {m : DrvMem}
    (gd : ℕ → ℕ → ℝ) {p d : Ptrs} {h h' h'' : Heap}
    (hS : Sound k B sp f kernels model (decide (qs.length ≠ 0)) p d h h' h'') (huse : DrvUses mm M tol)
    (hfit : DrvFits (drvNsv c.type) qs.length m)
    (hpt : ∀ i, ∀ hi : i < qs.length, vgradOf m.vgrad i = driverL ∧ Fresh c pars qs[i] (drvPoint _ _ m i))
    (out : List (Vec 6)) (e : Heap) :
    spaceRun k B sp f kernels model X gd mm qs.length m = .ok (out, e) ↔ Prints c X M tol pars qs out ∧ e = h'' := by
  have key := loop_prints (X := X) huse (contents_fit (decide (B.gpu = .hip ∧ kernels = .gpu)) gd hfit)
    (fun i hi => contents_fresh (decide (B.gpu = .hip ∧ kernels = .gpu)) gd (hpt i hi)) out
  rw [← key]
  unfold spaceRun
  dsimp only
  rw [hS.init]
  dsimp only
  rw [hS.mirror]
  dsimp only
  rw [spaceLoop_fine hS.fine]
  cases hl : drvLoop X mm drvDt (drvNsv c.type) qs.length drvSteps
    (spaceContents (decide (B.gpu = .hip ∧ kernels = .gpu)) qs.length gd m) [] with
  | undef w => simp
  | fail er r => simp
  | ok r =>
    dsimp only
    rw [hS.free]
    obtain ⟨r1, r2⟩ := r
    simp only [Res.ok.injEq, Prod.mk.injEq]
    exact ⟨fun h => ⟨⟨r1, rfl, h.1⟩, h.2.symm⟩, fun h => ⟨h.1.choose_spec.2, h.2.symm⟩⟩

/-- **C95.** Without points, or with what it needs of the machine, the program is sound. -/
theorem C95_sound (k : Machine) (B : Build) (c : Case) (hc : c = .fccA ∨ c = .fccB) (device : Strategy)
    (hd : device = .gpu → B.hasGpu = true) (busy : Bool) (h : busy = true → InReach k B c device) :
    ∃ p d h1 h2 h3, Sound k B (drvAllocSpace B (drvHost device)) (drvDealloc B (drvHost device)) device
      (drvModelStrategy c device) busy p d h1 h2 h3 := by
  by_cases hg : device = .gpu
  · subst hg
    have hB := hd rfl
    cases hgpu : B.gpu with
    | none => simp [Build.hasGpu, hgpu] at hB
    | cuda =>
      have e1 : drvAllocSpace B (drvHost .gpu) = .managed := by simp [drvAllocSpace, drvHost, hgpu]
      have e2 : drvDealloc B (drvHost .gpu) = .cudaFree := by simp [drvDealloc, drvHost, hgpu]
      rw [e1, e2]
      refine ⟨_, _, _, _, _, sound_cuda k B _ hgpu busy fun hb hm => ?_⟩
      rcases h hb rfl with ⟨-, h1⟩ | ⟨h2, -⟩
      · rcases hc with rfl | rfl
        · exact h1 rfl
        · simp [drvModelStrategy] at hm
      · rw [hgpu] at h2; cases h2
    | hip =>
      have e1 : drvAllocSpace B (drvHost .gpu) = .device := by simp [drvAllocSpace, drvHost, hgpu]
      have e2 : drvDealloc B (drvHost .gpu) = .hipFree := by simp [drvDealloc, drvHost, hgpu]
      rw [e1, e2]
      have hr : busy = true → k.hostSeesDev = true ∧ k.copyByAddress = true := by
        intro hb
        rcases h hb rfl with ⟨h1, -⟩ | ⟨-, h2⟩
        · rw [hgpu] at h1; cases h1
        · exact h2
      exact ⟨_, _, _, _, _, sound_hip k B .device .hipFree _ hgpu busy (Or.inr ⟨rfl, rfl, hr⟩) fun hb _ => (hr hb).1⟩
  · have e1 : drvAllocSpace B (drvHost device) = .host := by simp [drvAllocSpace, drvHost, hg]
    have e2 : drvDealloc B (drvHost device) = .delete := by simp [drvDealloc, drvHost, hg]
    rw [e1, e2]
    refine ⟨_, _, _, _, _, sound_host k B device _ hg ?_ busy⟩
    rcases hc with rfl | rfl
    · exact hg
    · simp [drvModelStrategy]

/-- **C95.** With points, and without what it needs of the machine, a run from the allocation on is undefined. -/
theorem C95_unsound {T : MType} (k : Machine) (B : Build) (c : Case) (device : Strategy) (h : ¬ InReach k B c device)
    (hd : device = .gpu → B.hasGpu = true) (X : Ext) (gd : ℕ → ℕ → ℝ) (mm : MM T) (N : ℕ) (hN : N ≠ 0) (m : DrvMem) :
    ∃ w, spaceRun k B (drvAllocSpace B (drvHost device)) (drvDealloc B (drvHost device)) device
      (drvModelStrategy c device) X gd mm N m = .undef w := by
  unfold InReach at h
  push Not at h
  obtain ⟨rfl, h1, h2⟩ := h
  have hb : decide (N ≠ 0) = true := by simp [hN]
  unfold spaceRun
  dsimp only
  rw [hb]
  have hB := hd rfl
  cases hgpu : B.gpu with
  | none => simp [Build.hasGpu, hgpu] at hB
  | cuda =>
    have e1 : drvAllocSpace B (drvHost .gpu) = .managed := by simp [drvAllocSpace, drvHost, hgpu]
    rw [e1]
    obtain ⟨rfl, h3, h4⟩ := h1 hgpu
    -- the arrays are fine: they are those of a sound run with the model on the CPU
    have hS := sound_cuda k B .cpu hgpu true fun _ h => by cases h
    have hmir := hS.mirror
    rw [hgpu] at hmir
    rw [hS.init]
    dsimp only
    rw [hmir]
    dsimp only
    have hmod : reachModel k B (drvModelStrategy .fccA .gpu) (ptrsFrom 0) ⟨blocks .managed 11, 11⟩ = false := by
      have hq : procOf B (drvModelStrategy .fccA .gpu) = .device := if_pos ⟨rfl, by rw [hgpu]; decide⟩
      unfold reachModel
      rw [hq, hgpu]
      show (true && (B.byValue || false || k.devSeesHost)) = false
      simp only [ne_eq, Bool.not_eq_true] at h3 h4
      rw [h3, h4]
      rfl
    obtain ⟨w, hw⟩ := spaceLoop_undef (P := ⟨k, B, .gpu, drvModelStrategy .fccA .gpu, ptrsFrom 0,
      ⟨blocks .managed 11, 11⟩, true⟩) rfl hmod X mm drvDt (drvNsv T) N 59
      (spaceContents (decide (Gpu.cuda = .hip ∧ Strategy.gpu = .gpu)) N gd m) []
    rw [show drvSteps = 59 + 1 from rfl, hw]
    exact ⟨w, rfl⟩
  | hip =>
    have e1 : drvAllocSpace B (drvHost .gpu) = .device := by simp [drvAllocSpace, drvHost, hgpu]
    rw [e1]
    have h3 := h2 hgpu
    obtain ⟨k1, k2, k3⟩ := k
    cases k2
    · exact ⟨_, rfl⟩
    · have : k3 = false := by simpa using h3 rfl
      subst this
      exact ⟨_, rfl⟩

/-- **C95.** The program in the memory of a machine ends well with a given output exactly when the files are proper, the
    material can be built, every crystal by itself can be driven through the sixty steps, the output is their mean stresses
    and, unless there are no orientations, the machine has what the driver needs of it. -/
theorem C95_main (k : Machine) (B : Build) (R : Reader) (u : ℕ → ℝ) (S : Solver 1) (X : Ext) (g gd : ℕ → ℕ → ℝ)
    (files : String → List String) (optionFile : String) (out : List (Vec 6)) :
    (∃ e, spaceMain k B R u S X g gd files optionFile = .ok (out, e)) ↔
      ∃ c pars qs device M tol, Files R u B.omp B.hasGpu files optionFile c pars qs device ∧
        BuiltFrom c.type S pars M tol ∧ Prints c X M tol pars qs out ∧ (qs ≠ [] → InReach k B c device) := by
  constructor
  · rintro ⟨e, h⟩
    unfold spaceMain at h
    split at h
    · cases h
    · cases h
    · rename_i c r hr
      obtain ⟨pars, qs, device, M, tol, hF, hM⟩ := C81_reject hr
      obtain ⟨hcd, hdd⟩ := hF.words
      obtain ⟨r', hr', hN, huse, hfit, hpt, h1, h2⟩ := C81_prepare g hF hM
      rw [hr] at hr'
      cases hr'
      rw [hN, h1, h2] at h
      have hreach : qs ≠ [] → InReach k B c device := by
        intro hq
        by_contra hno
        obtain ⟨w, hw⟩ := C95_unsound k B c device hno hdd X gd r.mm qs.length
          (fun h0 => hq (List.length_eq_zero_iff.1 h0)) r.mem
        rw [hw] at h
        cases h
      obtain ⟨p, d, a1, a2, a3, hS⟩ := C95_sound k B c hcd device hdd (decide (qs.length ≠ 0)) fun hb =>
        hreach fun h0 => by simp [h0] at hb
      exact ⟨c, pars, qs, device, M, tol, hF, hM, ((run_sound gd hS huse hfit hpt out e).1 h).1, hreach⟩
  · rintro ⟨c, pars, qs, device, M, tol, hF, hM, hP, hreach⟩
    obtain ⟨hcd, hdd⟩ := hF.words
    obtain ⟨r, hr, hN, huse, hfit, hpt, h1, h2⟩ := C81_prepare g hF hM
    obtain ⟨p, d, a1, a2, a3, hS⟩ := C95_sound k B c hcd device hdd (decide (qs.length ≠ 0)) fun hb =>
      hreach fun h0 => by simp [h0] at hb
    refine ⟨a3, ?_⟩
    unfold spaceMain
    rw [hr]
    dsimp only
    rw [hN, h1, h2]
    exact (run_sound gd hS huse hfit hpt out a3).2 ⟨hP, rfl⟩

/-- **C95.** A run that ends well has given back every block it allocated, each once and by the right function. -/
theorem C95_released {k : Machine} {B : Build} {R : Reader} {u : ℕ → ℝ} {S : Solver 1} {X : Ext} {g gd : ℕ → ℕ → ℝ}
    {files : String → List String} {optionFile : String} {out : List (Vec 6)} {e : Heap}
    (h : spaceMain k B R u S X g gd files optionFile = .ok (out, e)) : e.live = [] := by
  obtain ⟨c, pars, qs, device, M, tol, hF, hM, hP, hreach⟩ :=
    (C95_main k B R u S X g gd files optionFile out).1 ⟨e, h⟩
  obtain ⟨hcd, hdd⟩ := hF.words
  obtain ⟨r, hr, hN, huse, hfit, hpt, h1, h2⟩ := C81_prepare g hF hM
  obtain ⟨p, d, a1, a2, a3, hS⟩ := C95_sound k B c hcd device hdd (decide (qs.length ≠ 0)) fun hb =>
    hreach fun h0 => by simp [h0] at hb
  unfold spaceMain at h
  rw [hr] at h
  dsimp only at h
  rw [hN, h1, h2] at h
  obtain ⟨-, rfl⟩ := (run_sound gd hS huse hfit hpt out e).1 h
  exact hS.released

/-- **C95.** On the CPU and with OpenMP, in every build and on every machine, the program prints what the program with one
    memory (C81) prints. -/
theorem C95_host (k : Machine) (B : Build) {R : Reader} {u : ℕ → ℝ} {S : Solver 1} {files : String → List String}
    {optionFile : String} {c : Case} {pars : List ℝ} {qs : List (Vec 4)} {device : Strategy}
    (hF : Files R u B.omp B.hasGpu files optionFile c pars qs device) (hd : device ≠ .gpu) (X : Ext)
    (g gd : ℕ → ℕ → ℝ) (out : List (Vec 6)) :
    (∃ e, spaceMain k B R u S X g gd files optionFile = .ok (out, e)) ↔
      drvMain R u B.omp B.hasGpu S X g files optionFile = .ok out := by
  rw [C95_main, C81_main]
  constructor
  · rintro ⟨c', pars', qs', device', M, tol, h1, h2, h3, -⟩
    exact ⟨c', pars', qs', device', M, tol, h1, h2, h3⟩
  · rintro ⟨c', pars', qs', device', M, tol, h1, h2, h3⟩
    obtain rfl : device' = device := h1.device hF
    exact ⟨c', pars', qs', device', M, tol, h1, h2, h3, fun _ h => absurd h hd⟩

/-- **C95, refuted.** Built with CUDA as the README says, that is without the workaround, the driver with the model `voce`
    on the GPU is undefined on every machine whose device does not read host memory: the loop over the points uses the
    address of the model, a variable of the main program. -/
theorem C95_refuted_cuda (k : Machine) (hk : k.devSeesHost = false) (omp : Bool) {R : Reader} {u : ℕ → ℝ} {S : Solver 1}
    {files : String → List String} {optionFile : String} {pars : List ℝ} {qs : List (Vec 4)}
    {M : Material Case.fccA.type.nslip Case.fccA.type.nH} {tol : ℝ}
    (hF : Files R u omp true files optionFile .fccA pars qs .gpu) (hM : BuiltFrom Case.fccA.type S pars M tol)
    (hq : qs ≠ []) (X : Ext) (g gd : ℕ → ℕ → ℝ) :
    ∃ w, spaceMain k ⟨omp, .cuda, false⟩ R u S X g gd files optionFile = .undef w := by
  obtain ⟨r, hr, hN, -, -, -, h1, h2⟩ := C81_prepare g hF hM
  obtain ⟨w, hw⟩ := C95_unsound k ⟨omp, .cuda, false⟩ .fccA .gpu (by simp [InReach, hk]) (fun _ => rfl) X gd r.mm qs.length
    (fun h0 => hq (List.length_eq_zero_iff.1 h0)) r.mem
  refine ⟨w, ?_⟩
  unfold spaceMain
  rw [show (⟨omp, .cuda, false⟩ : Build).hasGpu = true from rfl, hr]
  dsimp only
  rw [hN, h1, h2]
  exact hw

/-- **C95, refuted.** Built with HIP, the driver on the GPU is undefined on every machine on which the host cannot use
    device addresses, or copies insist on the direction they are given, for both models: the arrays are allocated in device
    memory, filled by the host and then copied as if they were in host memory. -/
theorem C95_refuted_hip (k : Machine) (hk : k.hostSeesDev = false ∨ k.copyByAddress = false) (omp byValue : Bool)
    {R : Reader} {u : ℕ → ℝ} {S : Solver 1} {files : String → List String} {optionFile : String} {c : Case}
    {pars : List ℝ} {qs : List (Vec 4)} {M : Material c.type.nslip c.type.nH} {tol : ℝ}
    (hF : Files R u omp true files optionFile c pars qs .gpu) (hM : BuiltFrom c.type S pars M tol)
    (hq : qs ≠ []) (X : Ext) (g gd : ℕ → ℕ → ℝ) :
    ∃ w, spaceMain k ⟨omp, .hip, byValue⟩ R u S X g gd files optionFile = .undef w := by
  obtain ⟨r, hr, hN, -, -, -, h1, h2⟩ := C81_prepare g hF hM
  obtain ⟨w, hw⟩ := C95_unsound k ⟨omp, .hip, byValue⟩ c .gpu (by rcases hk with h | h <;> simp [InReach, h])
    (fun _ => rfl) X gd r.mm qs.length (fun h0 => hq (List.length_eq_zero_iff.1 h0)) r.mem
  refine ⟨w, ?_⟩
  unfold spaceMain
  rw [show (⟨omp, .hip, byValue⟩ : Build).hasGpu = true from rfl, hr]
  dsimp only
  rw [hN, h1, h2]
  exact hw

/-- **C95.** The repair: with HIP, arrays of the host in host memory (`new` and `delete` for `allocate` and `deallocate`)
    and the strategy set on the model that is used make the run sound on every machine, and it prints the mean stresses. -/
theorem C95_repaired (k : Machine) (B : Build) (hB : B.gpu = .hip) {c : Case} {X : Ext}
    {M : Material c.type.nslip c.type.nH} {tol : ℝ} {pars : List ℝ} {qs : List (Vec 4)} {mm : MM c.type} {m : DrvMem}
    (gd : ℕ → ℕ → ℝ) (huse : DrvUses mm M tol) (hfit : DrvFits (drvNsv c.type) qs.length m)
    (hpt : ∀ i, ∀ hi : i < qs.length, vgradOf m.vgrad i = driverL ∧ Fresh c pars qs[i] (drvPoint _ _ m i))
    (out : List (Vec 6)) :
    (∃ e, e.live = [] ∧ spaceRun k B .host .delete .gpu .gpu X gd mm qs.length m = .ok (out, e)) ↔
      Prints c X M tol pars qs out := by
  have hS := sound_hip k B .host .delete .gpu hB (decide (qs.length ≠ 0)) (Or.inl ⟨rfl, rfl⟩) fun _ h => absurd rfl h
  constructor
  · rintro ⟨e, -, h⟩
    exact ((run_sound gd hS huse hfit hpt out e).1 h).1
  · intro h
    exact ⟨_, hS.released, (run_sound gd hS huse hfit hpt out _).2 ⟨h, rfl⟩⟩

/-- **C95, refuted.** The memory alone is no repair for the model `mts`: its update stays on the CPU (C81) and uses device
    memory. -/
theorem C95_refuted_mts {T : MType} (k : Machine) (hk : k.hostSeesDev = false) (B : Build) (hB : B.gpu = .hip) (X : Ext)
    (gd : ℕ → ℕ → ℝ) (mm : MM T) (N : ℕ) (hN : N ≠ 0) (m : DrvMem) :
    ∃ w, spaceRun k B .host .delete .gpu (drvModelStrategy .fccB .gpu) X gd mm N m = .undef w := by
  have hb : decide (N ≠ 0) = true := by simp [hN]
  have hS := sound_hip k B .host .delete .gpu hB true (Or.inl ⟨rfl, rfl⟩) fun _ h => absurd rfl h
  unfold spaceRun
  dsimp only
  rw [hb, hS.init]
  dsimp only
  rw [hS.mirror]
  dsimp only
  have hmod : reachModel k B (drvModelStrategy .fccB .gpu) (ptrsFrom 11)
      ⟨(blocks .device 11).map (fun b => (b.1 + 11, b.2)) ++ blocks .host 11, 22⟩ = false := by
    have hq : procOf B (drvModelStrategy .fccB .gpu) = .host := if_neg fun h => by cases h.1
    unfold reachModel
    rw [hq]
    obtain ⟨k1, k2, k3⟩ := k
    cases hk
    rfl
  obtain ⟨w, hw⟩ := spaceLoop_undef (P := ⟨k, B, .gpu, drvModelStrategy .fccB .gpu, ptrsFrom 11,
    ⟨(blocks .device 11).map (fun b => (b.1 + 11, b.2)) ++ blocks .host 11, 22⟩, true⟩) rfl hmod X mm drvDt (drvNsv T) N 59
    (spaceContents (decide (B.gpu = .hip ∧ Strategy.gpu = .gpu)) N gd m) []
  rw [show drvSteps = 59 + 1 from rfl, hw]
  exact ⟨w, rfl⟩

/-! ### Concrete cases -/

/-- a machine that keeps to the guarantees of the interfaces -/
def plainMachine : Machine := ⟨false, false, false⟩

/-- the example files on the GPU of a plain machine, CUDA without the workaround: undefined -/
example (S : Solver 1) (X : Ext) (g gd : ℕ → ℕ → ℝ) (u : ℕ → ℝ) :
    ∃ w, spaceMain plainMachine ⟨false, .cuda, false⟩ (exReader exPars) u S X g gd (exFiles "voce" "GPU" 17) "options"
      = .undef w := by
  obtain ⟨M, tol, hM⟩ := (C81_parameters .fccA (by simp) S exPars).2 ⟨rfl, by simp [exPars]; norm_num⟩
  exact C95_refuted_cuda plainMachine rfl false
    (exFiles_ok .fccA "voce" "GPU" .gpu false true exPars u (Or.inl ⟨rfl, rfl⟩) (Or.inr (Or.inr ⟨rfl, rfl, rfl⟩))) hM
    (by simp) X g gd

/-- the same with HIP -/
example (S : Solver 1) (X : Ext) (g gd : ℕ → ℕ → ℝ) (u : ℕ → ℝ) :
    ∃ w, spaceMain plainMachine ⟨false, .hip, false⟩ (exReader exPars) u S X g gd (exFiles "voce" "GPU" 17) "options"
      = .undef w := by
  obtain ⟨M, tol, hM⟩ := (C81_parameters .fccA (by simp) S exPars).2 ⟨rfl, by simp [exPars]; norm_num⟩
  exact C95_refuted_hip plainMachine (Or.inl rfl) false false
    (exFiles_ok .fccA "voce" "GPU" .gpu false true exPars u (Or.inl ⟨rfl, rfl⟩) (Or.inr (Or.inr ⟨rfl, rfl, rfl⟩))) hM
    (by simp) X g gd

/-- with the workaround CUDA needs nothing of the machine, and without it only the model `mts` does not -/
example : InReach plainMachine ⟨false, .cuda, true⟩ .fccA .gpu ∧ InReach plainMachine ⟨false, .cuda, false⟩ .fccB .gpu ∧
    ¬ InReach plainMachine ⟨false, .cuda, false⟩ .fccA .gpu := by
  simp [InReach, plainMachine]

/-! ### The checks themselves -/

/-- **C95, reach.** Blocks are usable by a processor exactly when all of them are in use and in memory it can reach. -/
theorem C95_reach (k : Machine) (h : Heap) (who : Proc) (ps : List ℕ) :
    h.reaches k who ps = true ↔ ∀ p ∈ ps, ∃ s, h.space p = some s ∧ k.reach who s = true := by
  unfold Heap.reaches
  rw [List.all_eq_true]
  refine forall_congr' fun p => forall_congr' fun _ => ?_
  cases h.space p <;> simp

/-- **C95, copies.** A copy to the device is allowed exactly from a block of host memory, or any block in use if the
    machine goes by addresses, to a block of device memory. -/
theorem C95_copy (k : Machine) (h : Heap) (dst src : ℕ) :
    h.canCopy k dst src = true ↔ h.space dst = some .device ∧
      (h.space src = some .host ∨ k.copyByAddress = true ∧ ∃ s, h.space src = some s) := by
  unfold Heap.canCopy
  cases h.space src <;> simp

/-- **C95, mirror.** The copies of the three arrays to the device take place exactly when each of the three is in
    memory a copy to the device may start from. -/
theorem C95_mirror (k : Machine) (p : Ptrs) (h : Heap)
    (hp : p.state < h.next ∧ p.vgrad < h.next ∧ p.stress < h.next) :
    (∃ d h', spaceMirror k true true p h = .ok (d, h')) ↔
      ∀ a ∈ [p.state, p.vgrad, p.stress],
        h.space a = some .host ∨ k.copyByAddress = true ∧ ∃ s, h.space a = some s := by
  obtain ⟨h1, h2, h3⟩ := hp
  have key : ∀ a < h.next, ∀ l, Heap.space ⟨(h.next + 1 + 1, l) :: (h.next + 1, l) :: (h.next, l) :: h.live, h.next + 1 + 1 + 1⟩ a
      = h.space a := by
    intro a ha l
    unfold Heap.space
    simp only [List.lookup_cons]
    rw [show (a == h.next + 1 + 1) = false by simp; omega, show (a == h.next + 1) = false by simp; omega,
      show (a == h.next) = false by simp; omega]
  have dst : ∀ l : List (ℕ × Space), ∀ i ∈ [h.next, h.next + 1, h.next + 1 + 1],
      Heap.space ⟨(h.next + 1 + 1, .device) :: (h.next + 1, .device) :: (h.next, .device) :: l, h.next + 1 + 1 + 1⟩ i = some .device := by
    intro l i hi
    unfold Heap.space
    simp only [List.lookup_cons]
    simp only [List.mem_cons, List.not_mem_nil, or_false] at hi
    rcases hi with rfl | rfl | rfl <;> simp <;> split <;> first | rfl | (split <;> rfl)
  have e : ∀ i a, i ∈ [h.next, h.next + 1, h.next + 1 + 1] → a < h.next →
      (Heap.canCopy ⟨(h.next + 1 + 1, .device) :: (h.next + 1, .device) :: (h.next, .device) :: h.live, h.next + 1 + 1 + 1⟩ k i a
        = true ↔ (h.space a = some .host ∨ k.copyByAddress = true ∧ ∃ s, h.space a = some s)) := by
    intro i a hi ha
    rw [C95_copy, key a ha .device, dst h.live i hi]
    simp
  have i1 := e h.next p.state (by simp) h1
  have i2 := e (h.next + 1) p.vgrad (by simp) h2
  have i3 := e (h.next + 1 + 1) p.stress (by simp) h3
  simp only [List.mem_cons, List.not_mem_nil, or_false, forall_eq_or_imp, forall_eq]
  rw [← i1, ← i2, ← i3]
  unfold spaceMirror
  simp only [if_true, Heap.alloc, Bool.true_and]
  split_ifs with hc
  · simp only [Bool.not_eq_true', Bool.and_eq_false_iff] at hc
    constructor
    · rintro ⟨d, h', hh⟩; cases hh
    · rintro ⟨a, b, c⟩
      rw [a, b, c] at hc
      simp at hc
  · simp only [Bool.not_eq_true', Bool.not_eq_false, Bool.and_eq_true] at hc
    exact ⟨fun _ => ⟨hc.1.1, hc.1.2, hc.2⟩, fun _ => ⟨_, _, rfl⟩⟩

/-- a copy from host memory goes through, one from device memory does not unless the machine goes by addresses -/
example : (∃ d h', spaceMirror ⟨false, false, false⟩ true true (ptrsFrom 0) ⟨blocks .host 11, 11⟩ = .ok (d, h')) ∧
    ¬ ∃ d h', spaceMirror ⟨false, false, false⟩ true true (ptrsFrom 0) ⟨blocks .device 11, 11⟩ = .ok (d, h') := by
  constructor
  · exact (C95_mirror _ _ _ (by decide)).2 (by intro a ha; left; fin_cases ha <;> rfl)
  · rw [C95_mirror _ _ _ (by decide)]
    intro h
    rcases h 0 (by decide) with h | ⟨h, -⟩
    · exact absurd h (by decide)
    · exact absurd h (by decide)

end Ecm.Props
