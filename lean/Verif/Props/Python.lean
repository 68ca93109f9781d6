/-
  C44, C45, C52, C60: the Python bindings.
-/
import Verif.Lemmas.Python
import Verif.Props.Wrap
import Verif.Props.Batch
import Verif.Props.Params

namespace Ecm.Props
open Ecm Spec Classical

/-! ### numpy arrays (numpy reference, "The N-dimensional array: internal memory layout") -/

/-- position of an element in the allocation -/
def pos (a : PyArr) (idx : List ℕ) : ℤ :=
  a.off + (List.zipWith (fun (s : ℤ) (i : ℕ) => s * (i : ℤ)) a.strides idx).sum

/-- a legal array: every element lies in the allocation -/
def Valid (a : PyArr) : Prop :=
  a.strides.length = a.shape.length ∧
    ∀ idx, List.Forall₂ (· < ·) idx a.shape → 0 ≤ pos a idx ∧ pos a idx < a.mem.len

/-- a contiguous array in C order, with one or two dimensions; as in numpy, the stride of a dimension of length one
    does not matter -/
def CContig (a : PyArr) : Prop :=
  (∃ k, a.shape = [k] ∧ a.strides = [1]) ∨
  (∃ (r c : ℕ) (s0 s1 : ℤ), a.shape = [r, c] ∧ a.strides = [s0, s1] ∧ (r ≤ 1 ∨ s0 = c) ∧ (c ≤ 1 ∨ s1 = 1))

/-- the value of an element -/
def item (a : PyArr) (idx : List ℕ) : ℝ := a.mem.val (pos a idx).toNat

/-- the table of the Python names -/
def PyName (name : String) (c : Case) : Prop :=
  (name = "voce_fcc_norm" ∧ c = .fccA) ∨ (name = "voce_nl_fcc_norm" ∧ c = .fccAH) ∨
  (name = "voce_bcc_norm" ∧ c = .bccB) ∨ (name = "voce_nl_bcc_norm" ∧ c = .bccBH) ∨
  (name = "km_bal_dd_fcc_norm" ∧ c = .fccB) ∨ (name = "km_bal_dd_bcc_norm" ∧ c = .bccA) ∨
  (name = "km_bal_dd_hcp_norm" ∧ c = .hcpA)

/-- the parameters are physically acceptable to the model: positive bulk modulus; for the hexagonal
    model also an admissible axial ratio and unit exponents -/
def Acceptable (c : Case) (pars : List ℝ) : Prop :=
  (c ≠ .hcpA → 0 < (pars.getD 3 0 + 2 * pars.getD 4 0) / 3) ∧
  (c = .hcpA → RatioOk (pars.getD 3 0) ∧ (pars.getD 37 0 = 1 ∧ pars.getD 38 0 = 1) ∧
    0 < (2 * pars.getD 4 0 + 2 * pars.getD 5 0 + 4 * pars.getD 6 0 + pars.getD 7 0) / 9)

theorem mm_names : makeMatModel "evptn_FCC_A" = .ok .fccA ∧ makeMatModel "evptn_FCC_AH" = .ok .fccAH ∧
    makeMatModel "evptn_FCC_B" = .ok .fccB ∧ makeMatModel "evptn_BCC_A" = .ok .bccA ∧
    makeMatModel "evptn_HCP_A" = .ok .hcpA := by
  refine ⟨?_, ?_, ?_, ?_, ?_⟩ <;> simp [makeMatModel]

theorem pyCase_name (name : String) (c : Case) (h : pyCase name = .ok c) : PyName name c := by
  obtain ⟨a1, a2, a3, a4, a5⟩ := mm_names
  unfold pyCase at h
  rw [a1, a2, a3, a4, a5] at h
  unfold PyName
  by_cases h1 : name = "voce_fcc_norm"
  · rw [if_pos h1] at h; cases h; exact Or.inl ⟨h1, rfl⟩
  by_cases h2 : name = "voce_nl_fcc_norm"
  · rw [if_neg h1, if_pos h2] at h; cases h; exact Or.inr (Or.inl ⟨h2, rfl⟩)
  by_cases h3 : name = "voce_bcc_norm"
  · rw [if_neg h1, if_neg h2, if_pos h3] at h; cases h; exact Or.inr (Or.inr (Or.inl ⟨h3, rfl⟩))
  by_cases h4 : name = "voce_nl_bcc_norm"
  · rw [if_neg h1, if_neg h2, if_neg h3, if_pos h4] at h; cases h
    exact Or.inr (Or.inr (Or.inr (Or.inl ⟨h4, rfl⟩)))
  by_cases h5 : name = "km_bal_dd_fcc_norm"
  · rw [if_neg h1, if_neg h2, if_neg h3, if_neg h4, if_pos h5] at h; cases h
    exact Or.inr (Or.inr (Or.inr (Or.inr (Or.inl ⟨h5, rfl⟩))))
  by_cases h6 : name = "km_bal_dd_bcc_norm"
  · rw [if_neg h1, if_neg h2, if_neg h3, if_neg h4, if_neg h5, if_pos h6] at h; cases h
    exact Or.inr (Or.inr (Or.inr (Or.inr (Or.inr (Or.inl ⟨h6, rfl⟩)))))
  by_cases h7 : name = "km_bal_dd_hcp_norm"
  · rw [if_neg h1, if_neg h2, if_neg h3, if_neg h4, if_neg h5, if_neg h6, if_pos h7] at h; cases h
    exact Or.inr (Or.inr (Or.inr (Or.inr (Or.inr (Or.inr ⟨h7, rfl⟩)))))
  rw [if_neg h1, if_neg h2, if_neg h3, if_neg h4, if_neg h5, if_neg h6, if_neg h7] at h
  cases h

theorem pyCase_iff (name : String) (c : Case) : pyCase name = .ok c ↔ PyName name c := by
  refine ⟨pyCase_name name c, ?_⟩
  obtain ⟨a1, a2, a3, a4, a5⟩ := mm_names
  unfold pyCase
  rw [a1, a2, a3, a4, a5]
  rintro (⟨rfl, rfl⟩ | ⟨rfl, rfl⟩ | ⟨rfl, rfl⟩ | ⟨rfl, rfl⟩ | ⟨rfl, rfl⟩ | ⟨rfl, rfl⟩ | ⟨rfl, rfl⟩) <;> simp

theorem pyCase_fail (name : String) (h : ∀ c, ¬ PyName name c) : Fails (pyCase name) := by
  have hn : ∀ c, pyCase name ≠ .ok c := fun c hc => h c (pyCase_name name c hc)
  cases hp : pyCase name with
  | ok c => exact absurd hp (hn c)
  | fail s => exact ⟨s, rfl⟩
  | undef w =>
    obtain ⟨a1, a2, a3, a4, a5⟩ := mm_names
    unfold pyCase at hp
    rw [a1, a2, a3, a4, a5] at hp
    split_ifs at hp

theorem init_accept_iff (c : Case) (S : Solver 1) (m : MM c.type) (pars : List ℝ) :
    (m.initFromParams S [] pars []).2 = .ok () ↔ pars.length = parCount c ∧ Acceptable c pars := by
  by_cases hl : pars.length = parCount c
  · simp only [hl, true_and]
    by_cases hc : c = .hcpA
    · subst hc
      obtain ⟨h1, h2, h3, h4⟩ := C39_hcp S m pars [] hl (by simp)
      simp only [Acceptable, ne_eq, not_true_eq_false, false_imp_iff, true_and, forall_const]
      constructor
      · intro ho
        by_contra hn
        by_cases hr : RatioOk (pars.getD 3 0)
        · by_cases hu : pars.getD 37 0 = 1 ∧ pars.getD 38 0 = 1
          · have hb : (2 * pars.getD 4 0 + 2 * pars.getD 5 0 + 4 * pars.getD 6 0 + pars.getD 7 0) / 9
                ≤ 0 := by
              by_contra hb
              exact hn ⟨hr, hu, not_le.1 hb⟩
            obtain ⟨s, hs⟩ := h3 hr hu hb
            rw [ho] at hs; cases hs
          · obtain ⟨s, hs⟩ := h2 hr hu
            rw [ho] at hs; cases hs
        · obtain ⟨s, hs⟩ := h1 hr
          rw [ho] at hs; cases hs
      · rintro ⟨a, b, d⟩
        exact h4 a b d
    · obtain ⟨h1, h2⟩ := C39_cubic c hc S m pars [] hl (by simp)
      simp only [Acceptable, ne_eq, hc, not_false_eq_true, forall_const, false_imp_iff, and_true]
      constructor
      · intro ho
        by_contra hn
        obtain ⟨s, hs⟩ := h2 (not_lt.1 hn)
        rw [ho] at hs; cases hs
      · exact h1
  · simp only [hl, false_and, iff_false]
    intro ho
    obtain ⟨s, hs⟩ := C39_counts c S m [] pars [] (Or.inl hl)
    rw [ho] at hs; cases hs

theorem valid1_len {p : PyArr} {k : ℕ} (hs : p.shape = [k]) (hc : p.strides = [1]) (hv : Valid p) :
    k ≤ p.ptr.len := by
  rcases Nat.eq_zero_or_pos k with rfl | hk
  · exact Nat.zero_le _
  · have := hv.2 [k - 1] (by rw [hs]; simp; omega)
    simp only [pos, hc, List.zipWith, List.sum_cons, List.sum_nil] at this
    simp only [PyArr.ptr]
    omega

theorem pyParams_contig {p : PyArr} {k : ℕ} (hs : p.shape = [k]) (hk : k < 2 ^ 31) (hc : p.strides = [1])
    (hv : Valid p) : pyParams p = .ok ((List.range k).map fun i => item p [i]) := by
  have hl := valid1_len hs hc hv
  unfold pyParams
  rw [hs]
  simp only [toInt32_of_lt hk]
  rw [if_neg (by omega), if_neg (by simp; omega)]
  simp only [Int.toNat_natCast]
  congr 1
  apply List.map_congr_left
  intro i hi
  simp [item, pos, hc, PyArr.ptr]
  congr 1

/-- **C44.** For a legal contiguous one-dimensional array of less than 2^31 numbers, the constructor
    succeeds exactly for the seven names, the right number of parameters and acceptable values. -/
theorem C44_exact (S : Solver 1) (name : String) (p : PyArr) (k : ℕ) (hs : p.shape = [k])
    (hk : k < 2 ^ 31) (hc : p.strides = [1]) (hv : Valid p) :
    (∃ r, pyNew S name p = .ok r) ↔
      ∃ c, PyName name c ∧ k = parCount c ∧ Acceptable c ((List.range k).map fun i => item p [i]) := by
  unfold pyNew
  rw [pyParams_contig hs hk hc hv]
  simp only [Out.bind]
  constructor
  · rintro ⟨r, hr⟩
    cases hcase : pyCase name with
    | fail s => rw [hcase] at hr; cases hr
    | undef s => rw [hcase] at hr; cases hr
    | ok c =>
      rw [hcase] at hr
      simp only at hr
      refine ⟨c, (pyCase_iff name c).1 hcase, ?_⟩
      have hok : (MM.initFromParams S [] ((List.range k).map fun i => item p [i]) []
          (MM.new c.type (Strides.default c.type.numHist))).2 = .ok () := by
        revert hr
        cases (MM.initFromParams S [] ((List.range k).map fun i => item p [i]) []
          (MM.new c.type (Strides.default c.type.numHist))).2 with
        | ok u => intro _; rfl
        | fail s => intro hr; cases hr
        | undef s => intro hr; cases hr
      have := (init_accept_iff c S _ _).1 hok
      simpa using this
  · rintro ⟨c, hn, hl, ha⟩
    rw [(pyCase_iff name c).2 hn]
    simp only
    have hok := (init_accept_iff c S (MM.new c.type (Strides.default c.type.numHist))
      ((List.range k).map fun i => item p [i])).2 ⟨by simp [hl], ha⟩
    rw [hok]
    simp only
    obtain ⟨_, m2, g, kk, el, eos, h2, _⟩ := C42_ready S (MM.new c.type (Strides.default c.type.numHist)) _ _ _ _
      (Prod.ext (by rfl) hok)
    rw [h2]
    exact ⟨_, rfl⟩

/-- **C44.** A success gives the C++ model that the name stands for, holding the parameters of the
    array, completed, with the default strides. -/
theorem C44_model (S : Solver 1) (name : String) (p : PyArr) (k : ℕ) (hs : p.shape = [k])
    (hk : k < 2 ^ 31) (hc : p.strides = [1]) (hv : Valid p) (c : Case) (m : MM c.type)
    (h : pyNew S name p = .ok ⟨c, m⟩) :
    PyName name c ∧ m.getParams = ([], (List.range k).map (fun i => item p [i]), []) ∧
      m.complete = true ∧ m.strides = Strides.default c.type.numHist := by
  unfold pyNew at h
  rw [pyParams_contig hs hk hc hv] at h
  obtain ⟨pars, h1, h⟩ := Out.bind_ok h
  cases h1
  obtain ⟨c', h1, h⟩ := Out.bind_ok h
  obtain ⟨u, h2, h⟩ := Out.bind_ok h
  obtain ⟨m', h3, h⟩ := Out.bind_ok h
  cases h
  refine ⟨(pyCase_iff name c).1 h1, ?_, ?_, ?_⟩
  · rw [C40_complete _ _ h3, C40_model]
  · unfold MM.setComplete at h3
    split at h3
    · cases h3
    · cases h3; rfl
  · have := (init_complete S (MM.new c.type (Strides.default c.type.numHist)) [] 
      ((List.range k).map fun i => item p [i]) []).2
    unfold MM.setComplete at h3
    split at h3
    · cases h3
    · cases h3; exact this

/-- **C44.** Anything but one dimension, an unknown name, or a wrong number of parameters is
    reported. -/
theorem C44_rejects (S : Solver 1) (name : String) (p : PyArr) :
    (p.shape.length ≠ 1 → Fails (pyNew S name p)) ∧
    (∀ k, p.shape = [k] → k < 2 ^ 31 → p.strides = [1] → Valid p →
      ((∀ c, ¬ PyName name c) → Fails (pyNew S name p)) ∧
      (∀ c, PyName name c → k ≠ parCount c → Fails (pyNew S name p)) ∧
      (∀ c, PyName name c → c ≠ .hcpA → ¬ Acceptable c ((List.range k).map fun i => item p [i]) →
        Fails (pyNew S name p))) := by
  constructor
  · intro h
    refine ⟨"Number of dimensions must be one", ?_⟩
    have : pyParams p = .fail "Number of dimensions must be one" := by
      unfold pyParams
      split
      · rename_i hk; rw [hk] at h; simp at h
      · rfl
    unfold pyNew
    rw [this]; rfl
  · intro k hs hk hc hv
    unfold pyNew
    rw [pyParams_contig hs hk hc hv]
    simp only [Out.bind]
    refine ⟨?_, ?_, ?_⟩
    · intro hn
      obtain ⟨s, e⟩ := pyCase_fail name hn
      rw [e]
      exact ⟨s, rfl⟩
    · intro c hn hl
      rw [(pyCase_iff name c).2 hn]
      obtain ⟨s, e⟩ := C39_counts c S (MM.new c.type (Strides.default c.type.numHist)) []
        ((List.range k).map fun i => item p [i]) [] (Or.inl (by simpa using hl))
      simp only
      rw [e]
      exact ⟨s, rfl⟩
    · intro c hn hh ha
      rw [(pyCase_iff name c).2 hn]
      simp only
      by_cases hl : k = parCount c
      · obtain ⟨s, e⟩ := (C39_cubic c hh S (MM.new c.type (Strides.default c.type.numHist))
          ((List.range k).map fun i => item p [i]) [] (by simpa using hl) (by simp)).2 (by
            by_contra hb
            exact ha ⟨fun _ => not_le.1 hb, fun h => absurd h hh⟩)
        rw [e]
        exact ⟨s, rfl⟩
      · obtain ⟨s, e⟩ := C39_counts c S (MM.new c.type (Strides.default c.type.numHist)) []
          ((List.range k).map fun i => item p [i]) [] (Or.inl (by simpa using hl))
        rw [e]
        exact ⟨s, rfl⟩

/-- every second element of 1, 2, 3, …, 34 -/
def everySecond : PyArr where
  shape := [17]
  strides := [2]
  mem := { len := 34, val := fun k => k + 1 }
  off := 0

/-- the first 17 elements of the same memory -/
def firstOnes : PyArr := { everySecond with strides := [1] }

theorem forall2_one {idx : List ℕ} {k : ℕ} (h : List.Forall₂ (· < ·) idx [k]) :
    ∃ i, idx = [i] ∧ i < k := by
  cases h with
  | cons h t => cases t; exact ⟨_, rfl, h⟩

theorem forall2_two {idx : List ℕ} {k l : ℕ} (h : List.Forall₂ (· < ·) idx [k, l]) :
    ∃ i j, idx = [i, j] ∧ i < k ∧ j < l := by
  cases h with
  | cons h t =>
    obtain ⟨j, rfl, hj⟩ := forall2_one t
    exact ⟨_, _, rfl, h, hj⟩

theorem valid_firstOnes : Valid firstOnes := by
  refine ⟨rfl, ?_⟩
  intro idx h
  obtain ⟨i, rfl, hi⟩ := forall2_one h
  simp [pos, firstOnes, everySecond]
  omega

/-- **C44, refuted for strided arrays.** A legal one-dimensional array of the right length with
    acceptable values is accepted, but the model is built from other numbers: the constructor walks
    through memory with stride one. -/
theorem C44_refuted_strided (S : Solver 1) :
    everySecond.shape = [17] ∧ Valid everySecond ∧
    Acceptable .fccA ((List.range 17).map fun i => item everySecond [i]) ∧
    ∃ m, pyNew S "voce_fcc_norm" everySecond = .ok ⟨.fccA, m⟩ ∧
      m.getParams.2.1 = (List.range 17).map (fun i : ℕ => (i : ℝ) + 1) ∧
      m.getParams.2.1 ≠ (List.range 17).map fun i => item everySecond [i] := by
  have hsame : pyNew S "voce_fcc_norm" everySecond = pyNew S "voce_fcc_norm" firstOnes := rfl
  refine ⟨rfl, ⟨rfl, ?_⟩, ?_, ?_⟩
  · intro idx h
    obtain ⟨i, rfl, hi⟩ := forall2_one h
    simp [pos, everySecond]
    omega
  · refine ⟨fun _ => ?_, fun h => by cases h⟩
    simp [item, pos, everySecond, List.getD_eq_getElem?_getD]
    norm_num
  · have hok := (C44_exact S "voce_fcc_norm" firstOnes 17 rfl (by norm_num) rfl valid_firstOnes).2
      ⟨.fccA, Or.inl ⟨rfl, rfl⟩, rfl, fun _ => by
        simp [item, pos, firstOnes, everySecond, List.getD_eq_getElem?_getD]
        norm_num, fun h => by cases h⟩
    obtain ⟨⟨c, m⟩, hr⟩ := hok
    have hm := C44_model S "voce_fcc_norm" firstOnes 17 rfl (by norm_num) rfl valid_firstOnes c m hr
    have hcc : c = .fccA := by
      have h1 := (pyCase_iff _ _).2 hm.1
      have h2 := (pyCase_iff "voce_fcc_norm" .fccA).2 (Or.inl ⟨rfl, rfl⟩)
      exact Out.ok.inj (h1.symm.trans h2)
    subst hcc
    have hp : m.getParams.2.1 = (List.range 17).map (fun i : ℕ => (i : ℝ) + 1) := by
      rw [hm.2.1]
      apply List.map_congr_left
      intro i _
      simp [item, pos, firstOnes, everySecond]
    refine ⟨m, hsame.trans hr, hp, ?_⟩
    rw [hp]
    intro h
    have := congrArg (fun l => l.getD 1 0) h
    simp [item, pos, everySecond, List.getD_eq_getElem?_getD] at this

/-- the number 1 broadcast to length 17 -/
def broadcastOne : PyArr where
  shape := [17]
  strides := [0]
  mem := { len := 1, val := fun _ => 1 }
  off := 0

/-- **C44, refuted for broadcast arrays.** A legal array is read behind the end of its memory. -/
theorem C44_refuted_broadcast (S : Solver 1) (name : String) :
    Valid broadcastOne ∧ ∃ w, pyNew S name broadcastOne = .undef w := by
  refine ⟨⟨rfl, ?_⟩, ?_⟩
  · intro idx h
    obtain ⟨i, rfl, hi⟩ := forall2_one h
    simp [pos, broadcastOne]
  · have : pyParams broadcastOne = .undef "read behind the end of the array" := by
      have e : toInt32 17 = 17 := by unfold toInt32; norm_num
      unfold pyParams
      simp [broadcastOne, PyArr.ptr, e]
    exact ⟨_, by unfold pyNew; rw [this]; rfl⟩

/-- **C44, refuted for huge arrays.** The length is cut to 32 bits: an array with 2^32 + 17 entries is
    accepted for a model that takes 17. -/
theorem C44_refuted_length (S : Solver 1) (p : PyArr) (hs : p.shape = [2 ^ 32 + 17]) (hc : p.strides = [1])
    (hv : Valid p) (ha : Acceptable .fccA ((List.range 17).map fun i => item p [i])) :
    ∃ m, pyNew S "voce_fcc_norm" p = .ok m := by
  have hsame : pyNew S "voce_fcc_norm" p = pyNew S "voce_fcc_norm" { p with shape := [17] } := by
    have : pyParams p = pyParams { p with shape := [17] } := by
      unfold pyParams
      rw [hs]
      have e1 : toInt32 (2 ^ 32 + 17) = 17 := by unfold toInt32; norm_num
      have e2 : toInt32 17 = 17 := by unfold toInt32; norm_num
      simp only [e1, e2]
      rfl
    unfold pyNew
    rw [this]
  rw [hsame]
  refine (C44_exact S "voce_fcc_norm" { p with shape := [17] } 17 rfl (by norm_num) hc ⟨by simpa [hs] using hv.1, ?_⟩).2
    ⟨.fccA, Or.inl ⟨rfl, rfl⟩, rfl, ha⟩
  intro idx h
  obtain ⟨i, rfl, hi⟩ := forall2_one h
  exact hv.2 [i] (by rw [hs]; simp; omega)

/-! ### C45: the batch update from Python -/

/-- row `i` of a two-dimensional array -/
def row (a : PyArr) (i k : ℕ) : Vec k := fun j => item a [i, j]

/-- legal, and contiguous in C order -/
def Legal (a : PyArr) : Prop := Valid a ∧ CContig a

/-- all arguments are legal and contiguous in C order -/
structure LegalArgs (a : PyArgs) : Prop where
  defRate : Legal a.defRate
  spin : Legal a.spin
  volRatio : Legal a.volRatio
  eInt : Legal a.eInt
  stress : Legal a.stress
  hist : Legal a.hist
  tkelv : Legal a.tkelv
  sdd : Legal a.sdd

/-- inputs of point `i`: the rows `i` -/
def rowInp (a : PyArgs) (dt tol : ℝ) (i : ℕ) : Inputs where
  dt := dt
  tol := tol
  d := row a.defRate i 7
  w := row a.spin i 3
  vr := row a.volRatio i 4

/-- state of point `i`: the rows `i` -/
def rowMem {nH n : ℕ} (a : PyArgs) (i : ℕ) : Mem nH n where
  eInt := item a.eInt [i, 0]
  stress := row a.stress i 7
  hist := row a.hist i (numHist nH n)
  tkelv := item a.tkelv [i, 0]
  sdd := row a.sdd i 2
  mtan := none

theorem legal_pos {a : PyArr} (h : Legal a) {N : ℕ} {c : ℕ} (hc : check2D a (N : ℤ) (c : ℤ)) :
    a.shape = [N, c] ∧ ∀ i < N, ∀ j < c, pos a [i, j] = ((a.off + (c * i + j) : ℕ) : ℤ) := by
  obtain ⟨hv, hcc⟩ := h
  unfold check2D at hc
  rcases hcc with ⟨k, hs, hst⟩ | ⟨r, c', s0, s1, hs, hst, h1, h2⟩
  · rw [hs] at hc; exact absurd hc (by simp)
  · rw [hs] at hc
    obtain ⟨e1, e2⟩ := hc
    have e1 : r = N := by exact_mod_cast e1
    have e2 : c' = c := by exact_mod_cast e2
    subst e1 e2
    refine ⟨hs, fun i hi j hj => ?_⟩
    have q1 : s0 * (i : ℤ) = c' * i := by
      rcases h1 with h1 | h1
      · have : i = 0 := by omega
        subst this; simp
      · rw [h1]
    have q2 : s1 * (j : ℤ) = j := by
      rcases h2 with h2 | h2
      · have : j = 0 := by omega
        subst this; simp
      · rw [h2, one_mul]
    simp only [pos, hst, List.zipWith, List.sum_cons, List.sum_nil]
    rw [q1, q2]
    push_cast; ring

theorem legal_row {a : PyArr} (h : Legal a) {N : ℕ} {c : ℕ} (hc : check2D a (N : ℤ) (c : ℤ)) (h0 : 0 < c) :
    (∀ i < N, c * i + c ≤ a.ptr.len) ∧ ∀ i < N, ∀ j < c, a.ptr.val (c * i + j) = item a [i, j] := by
  obtain ⟨hs, key⟩ := legal_pos h hc
  constructor
  · intro i hi
    have := (h.1.2 [i, c - 1] (by rw [hs]; simp; omega)).2
    rw [key i hi (c - 1) (by omega)] at this
    simp only [PyArr.ptr]
    have : a.off + (c * i + (c - 1)) < a.mem.len := by exact_mod_cast this
    omega
  · intro i hi j hj
    simp only [item, PyArr.ptr]
    rw [key i hi j hj]
    rfl

theorem pyNew_ready {S : Solver 1} {name : String} {p : PyArr} {c : Case} {m : MM c.type}
    (h : pyNew S name p = .ok ⟨c, m⟩) :
    ∃ (M : Material c.type.nslip c.type.nH) (tol : ℝ), ∀ X a N b,
      m.getResponse X a N b = batchLoop X M (Strides.default c.type.numHist) { a with tol := tol }
        (List.range N) b := by
  unfold pyNew at h
  obtain ⟨pars, h1, h⟩ := Out.bind_ok h
  obtain ⟨c', h1, h⟩ := Out.bind_ok h
  obtain ⟨u, h2, h⟩ := Out.bind_ok h
  obtain ⟨m', h3, h⟩ := Out.bind_ok h
  cases h
  obtain ⟨_, m2, g, k, el, eos, e1, _, _, _, _, _, _, _, _, e2⟩ := C42_ready S
    (MM.new c.type (Strides.default c.type.numHist)) _ _ _ _ (Prod.ext (by rfl) h2)
  have : m2 = m := Out.ok.inj (e1.symm.trans h3)
  subst this
  refine ⟨{ geom := g, kin := k, el := el, eos := eos }, pars.getD 2 0, fun X a N b => ?_⟩
  rw [e2]
  rfl

/-- the batch update of a model that uses the material `M`, on legal contiguous arrays -/
theorem range_split {N k : ℕ} {before after : List ℕ} (h : List.range N = before ++ k :: after) :
    before.length = k ∧ k < N ∧ (∀ i, i ∈ before ↔ i < k) ∧ ∀ i, i ∈ after ↔ k < i ∧ i < N := by
  have hlen : N = before.length + (after.length + 1) := by
    have := congrArg List.length h
    simpa using this
  have hget : ∀ j (hj : j < N), (before ++ k :: after)[j]'(by rw [← h]; simpa using hj) = j := by
    intro j hj
    simp [← h]
  have hk : before.length = k := by
    have := hget before.length (by omega)
    simpa using this.symm
  have hb : before = List.range k := by
    apply List.ext_getElem
    · simp [hk]
    · intro j h1 h2
      have := hget j (by omega)
      rw [List.getElem_append_left h1] at this
      simpa using this
  have hnd : (before ++ k :: after).Nodup := h ▸ List.nodup_range
  refine ⟨hk, by omega, fun i => by rw [hb]; simp, fun i => ?_⟩
  have hmem : i < N ↔ i < k ∨ i = k ∨ i ∈ after := by
    rw [← List.mem_range, h, List.mem_append, List.mem_cons, hb, List.mem_range]
  have hdis : i ∈ after → ¬ i < k ∧ i ≠ k := by
    intro hi
    rw [List.nodup_append] at hnd
    obtain ⟨-, h2, h3⟩ := hnd
    refine ⟨fun hlt => h3 i (by rw [hb]; simpa using hlt) i (List.mem_cons_of_mem _ hi) rfl, ?_⟩
    rintro rfl
    exact (List.nodup_cons.1 h2).1 hi
  constructor
  · intro hi
    have := hdis hi
    exact ⟨by omega, hmem.2 (Or.inr (Or.inr hi))⟩
  · rintro ⟨h1, h2⟩
    rcases hmem.1 h2 with h | h | h
    · omega
    · omega
    · exact h

theorem solve_rows {c : Case} {m : MM c.type} {M : Material c.type.nslip c.type.nH} {tol : ℝ}
    (hM : ∀ X a N b, m.getResponse X a N b = batchLoop X M (Strides.default c.type.numHist) { a with tol := tol }
      (List.range N) b) (a : PyArgs) (N : ℕ) (hN : c.type.numHist * N < 2 ^ 32)
    (hchk : PyChecks c.type.numHist a N) (hl : LegalArgs a) (X : Ext) (dt : ℝ) :
      (∀ i < N, Holds c.type.numHist (Strides.default c.type.numHist)
        { a.inp dt with tol := tol } a.out i) ∧
      ((∃ b, pySolve X m dt a N = .ok b) ↔
        ∀ i < N, ∃ m', getResponseSngl X M (rowInp a dt tol i) (rowMem a i) = .ok m') ∧
      (∀ w, pySolve X m dt a N = .undef w →
        ∃ i < N, getResponseSngl X M (rowInp a dt tol i) (rowMem a i) = .undef w) ∧
      (∀ b, pySolve X m dt a N = .ok b → ∀ i < N,
        getResponseSngl X M (rowInp a dt tol i) (rowMem a i)
          = .ok (pointMem (Strides.default c.type.numHist) b i)) ∧
      (∀ msg b, pySolve X m dt a N = .fail msg b → ∃ k < N,
        getResponseSngl X M (rowInp a dt tol k) (rowMem a k)
          = .fail msg (pointMem (Strides.default c.type.numHist) b k) ∧
        (∀ i < k, getResponseSngl X M (rowInp a dt tol i) (rowMem a i)
          = .ok (pointMem (Strides.default c.type.numHist) b i)) ∧
        ∀ i < N, k < i → pointMem (Strides.default c.type.numHist) b i
          = (rowMem a i : Mem c.type.nH c.type.nslip)) := by
  have h13 : 13 ≤ c.type.numHist := by unfold MType.numHist numHist; omega
  obtain ⟨d1, d2⟩ := legal_row hl.defRate (c := 7) hchk.defRate (by norm_num)
  obtain ⟨w1, w2⟩ := legal_row hl.spin (c := 3) hchk.spin (by norm_num)
  obtain ⟨v1, v2⟩ := legal_row hl.volRatio (c := 4) hchk.volRatio (by norm_num)
  obtain ⟨e1, e2⟩ := legal_row hl.eInt (c := 1) hchk.eInt (by norm_num)
  obtain ⟨s1, s2⟩ := legal_row hl.stress (c := 7) hchk.stress (by norm_num)
  obtain ⟨h1, h2⟩ := legal_row hl.hist (c := c.type.numHist) hchk.hist (by omega)
  obtain ⟨t1, t2⟩ := legal_row hl.tkelv (c := 1) hchk.tkelv (by norm_num)
  obtain ⟨q1, q2⟩ := legal_row hl.sdd (c := 2) hchk.sdd (by norm_num)
  have hold : ∀ i < N, Holds c.type.numHist (Strides.default c.type.numHist)
      { a.inp dt with tol := tol } a.out i := fun i hi =>
    ⟨d1 i hi, w1 i hi, v1 i hi, e1 i hi, s1 i hi, h1 i hi, t1 i hi, q1 i hi, fun t ht => by cases ht⟩
  have hno : ∀ i < N, NoOverflow (Strides.default c.type.numHist) a.out i := by
    intro i hi
    have hle : c.type.numHist * i ≤ c.type.numHist * N := Nat.mul_le_mul_left _ hi.le
    have hk : ∀ k, k ≤ 13 → k * i < 2 ^ 32 := fun k hk =>
      lt_of_le_of_lt (Nat.mul_le_mul_right i (hk.trans h13)) (lt_of_le_of_lt hle hN)
    exact ⟨⟨hk 7 (by norm_num), hk 3 (by norm_num), hk 4 (by norm_num), hk 1 (by norm_num),
      hk 7 (by norm_num), lt_of_le_of_lt hle hN, hk 1 (by norm_num), hk 2 (by norm_num)⟩,
      fun ht => by cases ht⟩
  have hA : (Strides.default c.type.numHist).Accepted (numHist c.type.nH c.type.nslip) :=
    ⟨le_refl _, le_refl _, le_refl _, le_refl _, le_refl _, le_refl _, le_refl _, le_refl _⟩
  have hsolve : pySolve X m dt a N = batchLoop X M (Strides.default c.type.numHist)
      { a.inp dt with tol := tol } (List.range N) a.out := by
    unfold pySolve
    rw [if_pos hchk, hM]
    rfl
  have hi : ∀ i < N, pointInp (Strides.default c.type.numHist) { a.inp dt with tol := tol } i
      = rowInp a dt tol i := by
    intro i hi
    unfold pointInp rowInp
    congr 1
    · funext j; exact d2 i hi j j.2
    · funext j; exact w2 i hi j j.2
    · funext j; exact v2 i hi j j.2
  have hm : ∀ i < N, (pointMem (Strides.default c.type.numHist) a.out i : Mem c.type.nH c.type.nslip)
      = rowMem a i := by
    intro i hi
    unfold pointMem rowMem
    congr 1
    · exact e2 i hi 0 one_pos
    · funext j; exact s2 i hi j j.2
    · funext j; exact h2 i hi j j.2
    · exact t2 i hi 0 one_pos
    · funext j; exact q2 i hi j j.2
  obtain ⟨r1, r2⟩ := C35_independent X M (Strides.default c.type.numHist)
    { a.inp dt with tol := tol } a.out N hA hold hno (List.range N) (List.Perm.refl _)
  refine ⟨hold, ?_, ?_, ?_, ?_⟩
  · rw [hsolve, r1]
    exact forall₂_congr fun i hiN => by rw [hi i hiN, hm i hiN]
  · intro w hw
    rw [hsolve] at hw
    have := batchLoop_spec (X := X) (M := M) (a := { a.inp dt with tol := tol }) hA (List.range N)
      a.out List.nodup_range (fun i hi => (hno i (List.mem_range.1 hi)).1)
      (fun i hi => safe_of (hold i (List.mem_range.1 hi)) (hno i (List.mem_range.1 hi)))
    rw [hw] at this
    obtain ⟨i, hi', e⟩ := this
    have hi' := List.mem_range.1 hi'
    refine ⟨i, hi', ?_⟩
    rw [← hi i hi', ← hm i hi', ← batchInp_eq (hno i hi').1, ← batchMem_eq (hno i hi').1]
    exact e
  · intro b hb i hi'
    rw [hsolve] at hb
    rw [← hi i hi', ← hm i hi']
    exact r2 b hb i hi'
  · intro msg b hb
    rw [hsolve] at hb
    obtain ⟨before, k, after, hord, hk, hbef, haft⟩ := C35_failure X M (Strides.default c.type.numHist)
      { a.inp dt with tol := tol } a.out N hA hold hno (List.range N) (List.Perm.refl _) msg b hb
    obtain ⟨hk', hN', hbef', haft'⟩ := range_split hord
    refine ⟨k, hN', ?_, fun i hi' => ?_, fun i hiN hki => ?_⟩
    · rw [← hi k hN', ← hm k hN']; exact hk
    · rw [← hi i (hi'.trans hN'), ← hm i (hi'.trans hN')]
      exact hbef i ((hbef' i).2 hi')
    · rw [haft i ((haft' i).2 ⟨hki, hiN⟩), hm i hiN]

/-- **C45.** For a model made by the constructor, arrays that pass the checks and are legal and
    contiguous in C order, and fewer than 2^32 history entries: every element that the update of any
    point touches lies in its array; the call succeeds exactly when the update of each row succeeds;
    its behaviour is undefined only if that of the update of some row is; and on success each row
    holds the result of its update. -/
theorem C45_safe (S : Solver 1) (name : String) (p : PyArr) (c : Case) (m : MM c.type)
    (h : pyNew S name p = .ok ⟨c, m⟩) (a : PyArgs) (N : ℕ) (hN : c.type.numHist * N < 2 ^ 32)
    (hchk : PyChecks c.type.numHist a N) (hl : LegalArgs a) (X : Ext) (dt : ℝ) :
    ∃ (M : Material c.type.nslip c.type.nH) (tol : ℝ),
      (∀ i < N, Holds c.type.numHist (Strides.default c.type.numHist)
        { a.inp dt with tol := tol } a.out i) ∧
      ((∃ b, pySolve X m dt a N = .ok b) ↔
        ∀ i < N, ∃ m', getResponseSngl X M (rowInp a dt tol i) (rowMem a i) = .ok m') ∧
      (∀ w, pySolve X m dt a N = .undef w →
        ∃ i < N, getResponseSngl X M (rowInp a dt tol i) (rowMem a i) = .undef w) ∧
      (∀ b, pySolve X m dt a N = .ok b → ∀ i < N,
        getResponseSngl X M (rowInp a dt tol i) (rowMem a i)
          = .ok (pointMem (Strides.default c.type.numHist) b i)) := by
  obtain ⟨M, tol, hM⟩ := pyNew_ready h
  obtain ⟨h1, h2, h3, h4, -⟩ := solve_rows hM a N hN hchk hl X dt
  exact ⟨M, tol, h1, h2, h3, h4⟩

/-- **C45.** Arrays that do not have the documented shapes, or a negative number of points, are
    reported and nothing is changed. -/
theorem C45_rejects {T : MType} (X : Ext) (m : MM T) (dt : ℝ) (a : PyArgs) (nPassed : ℤ) :
    (¬ PyChecks T.numHist a nPassed → pySolve X m dt a nPassed = .fail "Dimensions for variable" a.out) ∧
    (nPassed < 0 → ¬ PyChecks T.numHist a nPassed) := by
  constructor
  · intro h
    unfold pySolve
    rw [if_neg h]
  · intro hn h
    have := h.defRate
    unfold check2D at this
    split at this
    · omega
    · exact this

/-- a single number broadcast to the shape (1, 7) -/
def broadcastRow (v : ℝ) : PyArr where
  shape := [1, 7]
  strides := [0, 0]
  mem := { len := 1, val := fun _ => v }
  off := 0

/-- **C45, refuted for broadcast arrays.** A deformation rate that is one number broadcast to the
    documented shape is legal and passes the checks, but is read behind the end of its memory. -/
theorem C45_refuted_broadcast (S : Solver 1) (name : String) (p : PyArr) (c : Case) (m : MM c.type)
    (h : pyNew S name p = .ok ⟨c, m⟩) (a : PyArgs) (v : ℝ) (hd : a.defRate = broadcastRow v)
    (hchk : PyChecks c.type.numHist a 1) (X : Ext) (dt : ℝ) :
    Valid a.defRate ∧ ∃ w, pySolve X m dt a 1 = .undef w := by
  obtain ⟨M, tol, hM⟩ := pyNew_ready h
  constructor
  · rw [hd]
    refine ⟨rfl, ?_⟩
    intro idx h
    obtain ⟨i, j, rfl, hi, hj⟩ := forall2_two h
    simp [pos, broadcastRow]
  · refine ⟨"index overflow or access outside an array", ?_⟩
    unfold pySolve
    rw [if_pos hchk, hM]
    show batchLoop X M _ _ [0] a.out = _
    simp only [batchLoop, batchPoint]
    rw [if_neg]
    intro hs
    have := hs.defRate
    simp [PyArgs.inp, hd, broadcastRow, PyArr.ptr, Strides.default, offU] at this

/-! ### C52: the single-point binding -/

/-- **C52 (cubic models).** The single-point binding accepts exactly the parameters that the batch
    model accepts, and then has the same sub-models, density, specific heat and tolerance. -/
theorem C52_cubic (c : Case) (hc : c ≠ .hcpA) (S : Solver 1) (m : MM c.type) (pars : List ℝ) :
    ((∃ D, Dev.new c.type S pars = .ok D) ↔ (m.initFromParams S [] pars []).2 = .ok ()) ∧
    ∀ D, Dev.new c.type S pars = .ok D →
      (m.initFromParams S [] pars []).1.geom = some D.mat.geom ∧
      (m.initFromParams S [] pars []).1.kin = some D.mat.kin ∧
      (m.initFromParams S [] pars []).1.el = some D.mat.el ∧
      (m.initFromParams S [] pars []).1.eos = some D.mat.eos ∧
      (m.initFromParams S [] pars []).1.tolerance = some D.tolerance ∧
      (m.initFromParams S [] pars []).1.rho0 = D.rho0 ∧
      (m.initFromParams S [] pars []).1.cvav = D.cvav := by
  have hg : c.type.geomN = 0 := by cases c <;> first | rfl | exact absurd rfl hc
  by_cases hl : pars.length = c.type.nParams
  · obtain ⟨rho0, cvav, tol, gamma, ec0, gl, el, kl, rfl, hgl, he, hk⟩ := exists_parVec pars hl
    have hgl0 : gl = [] := by rw [hg] at hgl; exact List.length_eq_zero_iff.1 hgl
    subst hgl0
    rw [dev_new S hg rho0 cvav tol gamma ec0 el kl he hk,
      init_outcome S m rho0 cvav tol gamma ec0 [] el kl [] hgl he hk (by simp)]
    cases hG : c.type.setGeom [] with
    | fail s => simp [Out.bind]
    | undef s => simp [Out.bind]
    | ok g =>
      cases hE : c.type.setEl el with
      | fail s => simp [Out.bind]
      | undef s => simp [Out.bind]
      | ok e =>
        cases hK : c.type.setKin S kl with
        | fail s => simp [Out.bind]
        | undef s => simp [Out.bind]
        | ok k =>
          obtain ⟨k, info⟩ := k
          by_cases hB : 0 < e.kBulkMod
          · by_cases hI : info.length = c.type.nH
            · simp only [Out.bind, getBulkMod_ok hB, if_pos hI]
              refine ⟨⟨fun _ => trivial, fun _ => ⟨_, rfl⟩⟩, ?_⟩
              intro D hD
              cases hD
              rw [init_ok S m rho0 cvav tol gamma ec0 [] el kl [] hgl he hk (by simp) hG hE hK hB hI]
              simp
            · simp [Out.bind, getBulkMod_ok hB, if_neg hI]
          · simp [Out.bind, getBulkMod_fail (not_lt.1 hB)]
  · have h1 : Dev.new c.type S pars = .fail "wrong number of params" := by
      unfold Dev.new
      rw [if_pos]
      have : c.type.devParams = c.type.nParams := by
        unfold MType.devParams MType.nParams; rw [hg]
      rw [this]; exact hl
    obtain ⟨msg, h2⟩ := init_wrong_counts S m [] pars [] (Or.inl hl)
    rw [h1, h2]
    simp

theorem takePars_ok {k : ℕ} {l : List ℝ} {r : List ℝ × List ℝ} (h : takePars k l = .ok r) :
    r.1.length = k ∧ l.length = k + r.2.length := by
  unfold takePars at h
  split_ifs at h with hk
  cases h
  simp; omega

/-- **C52, refuted for the hexagonal model.** The single-point binding never accepts any parameter
    list: the constant nParams (ecmech_classes.hpp:408) leaves out the axial ratio.  The documented list
    of 97 parameters is reported as wrong. -/
theorem C52_refuted_hcp (S : Solver 1) (pars : List ℝ) :
    (∀ D, Dev.new Case.hcpA.type S pars ≠ .ok D) ∧
    (pars.length = 97 → Fails (Dev.new Case.hcpA.type S pars)) := by
  constructor
  · intro D h
    unfold Dev.new at h
    split_ifs at h with hl
    push Not at hl
    have hl : pars.length = 96 := hl
    obtain ⟨r1, e1, h⟩ := Out.bind_ok h
    obtain ⟨r2, e2, h⟩ := Out.bind_ok h
    obtain ⟨_, _, h⟩ := Out.bind_ok h
    obtain ⟨r3, e3, h⟩ := Out.bind_ok h
    obtain ⟨_, _, h⟩ := Out.bind_ok h
    obtain ⟨r4, e4, h⟩ := Out.bind_ok h
    obtain ⟨_, _, h⟩ := Out.bind_ok h
    obtain ⟨_, _, h⟩ := Out.bind_ok h
    obtain ⟨r5, e5, h⟩ := Out.bind_ok h
    have q1 := (takePars_ok e1).2
    have q2 := (takePars_ok e2).2
    have q3 := (takePars_ok e3).2
    have q4 := (takePars_ok e4).2
    have q5 := (takePars_ok e5).2
    change _ = 1 + _ at q2
    change _ = 6 + _ at q3
    change _ = 85 + _ at q4
    change _ = 2 + _ at q5
    omega
  · intro hl
    refine ⟨"wrong number of params", ?_⟩
    unfold Dev.new
    rw [if_pos]
    rw [hl]
    show (97 : ℕ) ≠ 96
    norm_num

/-! ### C60: the single-point binding and the batch update -/

variable {n nH : ℕ}

/-- **C60.** The single-point binding sets up the problem of the batch update: it fails or is undefined
    when that is, and otherwise has the same updated hardness, problem, temperature, equation-of-state
    results and normalised old orientation. -/
theorem C60_problem (M : Material n nH) (inp : Inputs) (m : Mem nH n) :
    devSetup M inp m = Out.bind (Step.setup M inp m) fun r => .ok
      { dt := inp.dt, d := inp.d, tkelv := Step.tK M inp m, quatN := Step.quatN m
        eos := Step.eosUpdate M inp m, hardU := r.1, prob := r.2 } := by
  unfold devSetup Step.setup
  simp only
  split_ifs
  · rfl
  · rfl
  · simp only [Step.tK, Step.eosUpdate, Step.quatN]
    cases M.kin.updateH (Hist.ofArray m.hist).h inp.dt (Hist.ofArray m.hist).gdot with
    | fail s => rfl
    | undef w => rfl
    | ok u =>
      simp only [Out.bind]
      cases Updst.make M.geom M.kin M.el inp.dt (inp.vr 1)
        (M.eos.updateSimple (inp.vr 1) (inp.vr 3) m.eInt (m.stress 6)).eNew
        (M.eos.updateSimple (inp.vr 1) (inp.vr 3) m.eInt (m.stress 6)).press
        (M.eos.evalPT (inp.vr 0) m.eInt).2 u.1 (Hist.ofArray m.hist).e
        (vecsVNormalize (Hist.ofArray m.hist).q) (svecToVecd inp.d) inp.w with
      | fail s => rfl
      | undef w => rfl
      | ok P => rfl

/-- **C60.** At the solution found by the batch update, the single-point binding returns the same
    stress, temperature, moduli and history, except that the number of evaluations is zero. -/
theorem C60_state (X : Ext) (M : Material n nH) (inp : Inputs) (m m' : Mem nH n)
    (h : getResponseSngl X M inp m = .ok m') :
    ∃ (D : DevProb n nH) (o : DevOut nH n), devSetup M inp m = .ok D ∧
      devGetState M.el D (Step.lastX (Step.solve X inp D.prob) m.mtan.isSome)
        (Step.solve X inp D.prob).x m.hist = .ok o ∧
      o.stress = m'.stress ∧ o.tkelv = m'.tkelv ∧ o.sdd = m'.sdd ∧
      Hist.ofArray o.hist = { Hist.ofArray m'.hist with nFEval := 0 } := by
  obtain ⟨W⟩ := getResponseSngl_ok h
  have hs := Step.setup_eq_ok W.hq W.hcv W.hdt W.hv W.hH W.hV
  rw [← W.hP] at hs
  refine ⟨{ dt := inp.dt, d := inp.d, tkelv := Step.tK M inp m, quatN := Step.quatN m
            eos := Step.eosUpdate M inp m, hardU := W.hU, prob := W.P },
    { eInt := none, stress := m'.stress
      hist := ({ Hist.ofArray m'.hist with nFEval := 0 } : Hist nH n).toArray
      tkelv := m'.tkelv, sdd := m'.sdd }, ?_, ?_⟩
  · rw [C60_problem, hs]; rfl
  · refine ⟨?_, rfl, rfl, rfl, Hist.ofArray_toArray _⟩
    have hc : W.P.cN = Step.quatN m := by rw [W.hP]
    have hd : W.P.dSm = svecToVecd inp.d := by rw [W.hP]
    unfold devGetState
    simp only [W.hg, Out.bind, W.hst, W.hsdd, W.htk, W.hhist, Hist.ofArray_toArray]
    simp only [Step.newHist, Step.flowStr, Step.flipQuat, Step.stressOf, hc, hd]

/-- **C60, refuted for the energy.** The single-point binding computes the energy from members that
    are never assigned: it is indeterminate whenever the call returns. -/
theorem C60_refuted_energy (el : Elast) (D : DevProb n nH) (xLast x : Vec 8)
    (hist : Vec (numHist nH n)) (o : DevOut nH n) (h : devGetState el D xLast x hist = .ok o) :
    o.eInt = none := by
  unfold devGetState at h
  obtain ⟨g, _, h⟩ := Out.bind_ok h
  cases h
  rfl

/-! ### Concrete cases -/

example (S : Solver 1) : ∃ m, pyNew S "voce_fcc_norm" firstOnes = .ok m :=
  (C44_exact S "voce_fcc_norm" firstOnes 17 rfl (by norm_num) rfl valid_firstOnes).2
    ⟨.fccA, Or.inl ⟨rfl, rfl⟩, rfl, fun _ => by
      simp [item, pos, firstOnes, everySecond, List.getD_eq_getElem?_getD]
      norm_num, fun h => by cases h⟩

example (S : Solver 1) : Fails (pyNew S "voce_hcp_norm" firstOnes) := by
  refine ((C44_rejects S "voce_hcp_norm" firstOnes).2 17 rfl (by norm_num) rfl valid_firstOnes).1 ?_
  intro c h
  unfold PyName at h
  simp at h

/-- an array of 2^32 + 17 ones -/
def hugeOnes : PyArr where
  shape := [2 ^ 32 + 17]
  strides := [1]
  mem := { len := 2 ^ 32 + 17, val := fun _ => 1 }
  off := 0

example (S : Solver 1) : ∃ m, pyNew S "voce_fcc_norm" hugeOnes = .ok m := by
  refine C44_refuted_length S hugeOnes rfl rfl ⟨rfl, ?_⟩ ⟨fun _ => ?_, fun h => by cases h⟩
  · intro idx h
    obtain ⟨i, rfl, hi⟩ := forall2_one h
    simp [pos, hugeOnes]
    omega
  · simp [item, pos, hugeOnes, List.getD_eq_getElem?_getD]
    norm_num

/-- a contiguous array of zeros with `r` rows of `c` entries -/
def zeros (r c : ℕ) : PyArr where
  shape := [r, c]
  strides := [(c : ℤ), 1]
  mem := { len := r * c, val := fun _ => 0 }
  off := 0

theorem legal_zeros (r c : ℕ) : Legal (zeros r c) := by
  refine ⟨⟨rfl, ?_⟩, Or.inr ⟨r, c, c, 1, rfl, rfl, Or.inr rfl, Or.inr rfl⟩⟩
  intro idx h
  obtain ⟨i, j, rfl, hi, hj⟩ := forall2_two h
  have h1 : c * i + j < r * c := by
    calc c * i + j < c * i + c := by omega
      _ = c * (i + 1) := by ring
      _ ≤ c * r := Nat.mul_le_mul_left _ hi
      _ = r * c := by ring
  have h2 : ((c * i + j : ℕ) : ℤ) < ((r * c : ℕ) : ℤ) := by exact_mod_cast h1
  simp [pos, zeros]
  push_cast at h2
  exact ⟨by positivity, h2⟩

/-- arguments for `N` points, all zero -/
def zeroArgs (nHist N : ℕ) : PyArgs where
  defRate := zeros N 7
  spin := zeros N 3
  volRatio := zeros N 4
  eInt := zeros N 1
  stress := zeros N 7
  hist := zeros N nHist
  tkelv := zeros N 1
  sdd := zeros N 2

theorem checks_zeroArgs (nHist N : ℕ) : PyChecks nHist (zeroArgs nHist N) N := by
  constructor <;> exact ⟨rfl, rfl⟩

/-- the hypotheses of C45_safe can be met, for 1000 points -/
example (S : Solver 1) : ∃ c m, pyNew S "voce_fcc_norm" firstOnes = .ok ⟨c, m⟩ ∧
    c.type.numHist * 1000 < 2 ^ 32 ∧ PyChecks c.type.numHist (zeroArgs c.type.numHist 1000) (1000 : ℕ) ∧
    LegalArgs (zeroArgs c.type.numHist 1000) := by
  obtain ⟨⟨c, m⟩, hr⟩ := (C44_exact S "voce_fcc_norm" firstOnes 17 rfl (by norm_num) rfl valid_firstOnes).2
    ⟨.fccA, Or.inl ⟨rfl, rfl⟩, rfl, fun _ => by
      simp [item, pos, firstOnes, everySecond, List.getD_eq_getElem?_getD]
      norm_num, fun h => by cases h⟩
  refine ⟨c, m, hr, ?_, checks_zeroArgs _ _, ?_⟩
  · cases c <;> norm_num [Case.type, MType.numHist, numHist]
  · constructor <;> exact legal_zeros _ _

/-- the hypotheses of C45_refuted_broadcast can be met -/
example (nHist : ℕ) : PyChecks nHist { zeroArgs nHist 1 with defRate := broadcastRow 0 } 1 := by
  constructor <;> exact ⟨rfl, rfl⟩

example (S : Solver 1) : ∃ D, Dev.new Case.fccA.type S exPars = .ok D :=
  (C52_cubic .fccA (by simp) S (MM.new _ (Strides.default 26)) exPars).1.2
    ((C39_cubic .fccA (by simp) S _ exPars [] rfl (by simp)).1 (by simp [exPars]; norm_num))

example : ∃ D : DevProb 12 1, devSetup (exMat exEl) (exInp exEl 0) (exMem 0 none) = .ok D := by
  obtain ⟨m', h⟩ := ex_ok exEl exEl_pos 0 none
  obtain ⟨D, o, h1, _⟩ := C60_state _ _ _ _ _ h
  exact ⟨D, h1⟩

end Ecm.Props
