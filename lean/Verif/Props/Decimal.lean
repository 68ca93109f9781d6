/- Property theorems C103: numbers in the input files of the example program are read with their values
   (miniapp/orientation_evolution.cxx:186-262). -/
import Verif.Props.Shipped
import Mathlib.Data.List.TakeWhile

namespace Ecm.Props
open Ecm

/-! ### Decimal notation -/

/-- a decimal number as written: optional sign (`true` for minus), digits, optional point with further digits, optional
    exponent (with `E` for `true`) with its sign -/
structure Dec where
  sign : Option Bool
  whole : List (Fin 10)
  frac : Option (List (Fin 10))
  exp : Option (Bool × Option Bool × List (Fin 10))

/-- digits as characters -/
def digitText (ds : List (Fin 10)) : List Char := ds.map fun d => Nat.digitChar d.val

def signText : Option Bool → List Char
  | none => []
  | some true => ['-']
  | some false => ['+']

def fracText : Option (List (Fin 10)) → List Char
  | none => []
  | some ds => '.' :: digitText ds

def expText : Option (Bool × Option Bool × List (Fin 10)) → List Char
  | none => []
  | some (u, s, ds) => (if u then 'E' else 'e') :: (signText s ++ digitText ds)

/-- the notation -/
def Dec.text (a : Dec) : List Char := signText a.sign ++ (digitText a.whole ++ (fracText a.frac ++ expText a.exp))

/-- there is a digit before or after the point, and one in the exponent -/
def Dec.Proper (a : Dec) : Prop :=
  (a.whole ≠ [] ∨ ∃ ds, a.frac = some ds ∧ ds ≠ []) ∧ ∀ u s ds, a.exp = some (u, s, ds) → ds ≠ []

/-- a sign before a number -/
def signed (s : Option Bool) (x : ℝ) : ℝ := if s = some true then -x else x

/-- digits before the point: each digit counts ten times the next -/
def wholeVal : List (Fin 10) → ℝ
  | [] => 0
  | d :: ds => d.val * 10 ^ ds.length + wholeVal ds

/-- digits after the point: each digit counts a tenth of the one before -/
noncomputable def fracVal : List (Fin 10) → ℝ
  | [] => 0
  | d :: ds => (d.val + fracVal ds) / 10

/-- power of ten of an exponent -/
noncomputable def expVal : Option (Bool × Option Bool × List (Fin 10)) → ℝ
  | none => 1
  | some (_, s, ds) => (10 : ℝ) ^ (signed s (wholeVal ds))

/-- the number that is written -/
noncomputable def Dec.value (a : Dec) : ℝ :=
  signed a.sign ((wholeVal a.whole + fracVal (a.frac.getD [])) * expVal a.exp)

/-- white space -/
def Blank (l : List Char) : Prop := ∀ c ∈ l, c.isWhitespace = true

/-- the end of the text, or white space next -/
def Ends (l : List Char) : Prop := l = [] ∨ ∃ c r, l = c :: r ∧ c.isWhitespace = true

/-! ### helpers -/

theorem digit_facts : ∀ d : Fin 10, (Nat.digitChar d.val).isDigit = true ∧ (Nat.digitChar d.val).toNat - '0'.toNat = d.val ∧
    Nat.digitChar d.val ≠ '-' ∧ Nat.digitChar d.val ≠ '+' ∧ Nat.digitChar d.val ≠ '.' ∧ Nat.digitChar d.val ≠ 'e' ∧
    (Nat.digitChar d.val).isWhitespace = false := by decide

/-- no digit next -/
def NoDigit (l : List Char) : Prop := ∀ c r, l = c :: r → c.isDigit = false

/-- the digits as a natural number -/
def natVal : List (Fin 10) → ℕ
  | [] => 0
  | d :: ds => d.val * 10 ^ ds.length + natVal ds

theorem wholeVal_nat (ds : List (Fin 10)) : wholeVal ds = natVal ds := by
  induction ds with
  | nil => simp [wholeVal, natVal]
  | cons d ds ih => simp [wholeVal, natVal, ih]

theorem fracVal_nat (ds : List (Fin 10)) : fracVal ds * 10 ^ ds.length = natVal ds := by
  induction ds with
  | nil => simp [fracVal, natVal]
  | cons d ds ih =>
    simp only [fracVal, natVal, List.length_cons, pow_succ]
    push_cast
    rw [← ih]
    ring

theorem readDigits_text (ds : List (Fin 10)) {l : List Char} (hl : NoDigit l) :
    readDigits (digitText ds ++ l) = (natVal ds, ds.length, l) := by
  induction ds with
  | nil =>
    cases l with
    | nil => rfl
    | cons c r => simp [digitText, readDigits, hl c r rfl, natVal]
  | cons d ds ih =>
    obtain ⟨h1, h2, -⟩ := digit_facts d
    show readDigits (Nat.digitChar d.val :: (digitText ds ++ l)) = _
    rw [readDigits, if_pos h1, ih]
    simp only [h2, natVal, List.length_cons]

theorem readSign_text (s : Option Bool) {l : List Char} (hl : ∀ c r, l = c :: r → c ≠ '-' ∧ c ≠ '+') :
    readSign (signText s ++ l) = (s == some true, l) := by
  rcases s with _ | _ | _
  · cases l with
    | nil => rfl
    | cons c r =>
      obtain ⟨h1, h2⟩ := hl c r rfl
      show readSign (c :: r) = _
      unfold readSign
      split
      · rename_i h; cases h; exact absurd rfl h1
      · rename_i h; cases h; exact absurd rfl h2
      · rfl
  · rfl
  · rfl

theorem Ends.head {l : List Char} (h : Ends l) (c : Char) (r : List Char) (e : l = c :: r) : c.isWhitespace = true := by
  rcases h with rfl | ⟨c', r', rfl, h⟩
  · cases e
  · cases e; exact h

theorem white_facts {c : Char} (h : c.isWhitespace = true) :
    c.isDigit = false ∧ c ≠ '.' ∧ (c ≠ 'e' ∧ c ≠ 'E') ∧ c ≠ '-' ∧ c ≠ '+' := by
  simp only [Char.isWhitespace, Bool.or_eq_true, decide_eq_true_eq] at h
  rcases h with ((rfl | rfl) | rfl) | rfl <;> decide

theorem digitText_head {ds : List (Fin 10)} (hd : ds ≠ []) {l : List Char} :
    ∃ d : Fin 10, ∃ r, digitText ds ++ l = Nat.digitChar d.val :: r := by
  cases ds with
  | nil => exact absurd rfl hd
  | cons d ds => exact ⟨d, _, rfl⟩

theorem readExponent_text {e : Option (Bool × Option Bool × List (Fin 10))} (he : ∀ u s ds, e = some (u, s, ds) → ds ≠ [])
    {l : List Char} (hl : Ends l) :
    ∃ k : ℤ, readExponent (expText e ++ l) = some (k, l) ∧ expVal e = (10 : ℝ) ^ k := by
  cases e with
  | none =>
    refine ⟨0, ?_, by simp [expVal]⟩
    show readExponent l = _
    unfold readExponent
    split
    · exact absurd rfl (white_facts (hl.head _ _ rfl)).2.2.1.1
    · exact absurd rfl (white_facts (hl.head _ _ rfl)).2.2.1.2
    · rfl
  | some p =>
    obtain ⟨u, s, ds⟩ := p
    have hd := he u s ds rfl
    have hn : NoDigit l := fun c r e => (white_facts (hl.head c r e)).1
    have hs : readSign (signText s ++ (digitText ds ++ l)) = (s == some true, digitText ds ++ l) := by
      refine readSign_text s fun c r e => ?_
      obtain ⟨d, r', e'⟩ := digitText_head hd (l := l)
      rw [e'] at e
      cases e
      exact ⟨(digit_facts d).2.2.1, (digit_facts d).2.2.2.1⟩
    refine ⟨if (s == some true) = true then -(natVal ds : ℤ) else natVal ds, ?_, ?_⟩
    · show readExponent ((if u then 'E' else 'e') :: ((signText s ++ digitText ds) ++ l)) = _
      rw [List.append_assoc]
      cases u <;> simp only [readExponent, hs, readDigits_text ds hn, if_true, if_false, Bool.false_eq_true] <;>
        rw [if_neg (by simpa using hd)]
    · simp only [expVal, signed, wholeVal_nat]
      by_cases h : s = some true
      · simp only [h, if_true, beq_self_eq_true]
        rw [← Real.rpow_intCast]; push_cast; rfl
      · have h' : ¬ (s == some true) = true := by simpa using h
        rw [if_neg h, if_neg h']
        rw [← Real.rpow_intCast]; push_cast; rfl

theorem readFraction_text (f : Option (List (Fin 10))) {l : List Char} (hl : NoDigit l) (h2 : ∀ c r, l = c :: r → c ≠ '.') :
    readFraction (fracText f ++ l) = (natVal (f.getD []), (f.getD []).length, l) := by
  cases f with
  | none =>
    show readFraction l = _
    unfold readFraction
    split
    · exact absurd rfl (h2 _ _ rfl)
    · rfl
  | some ds =>
    show readDigits (digitText ds ++ l) = _
    exact readDigits_text ds hl

theorem dropWhile_blank {b : List Char} (hb : Blank b) {l : List Char} (hl : ∀ c r, l = c :: r → c.isWhitespace = false) :
    (b ++ l).dropWhile Char.isWhitespace = l := by
  induction b with
  | nil =>
    cases l with
    | nil => rfl
    | cons c r => simp [hl c r rfl]
  | cons c b ih =>
    have hc := hb c (by simp)
    simp only [List.cons_append, List.dropWhile_cons, hc, if_true]
    exact ih fun x hx => hb x (by simp [hx])

theorem expText_head (e : Option (Bool × Option Bool × List (Fin 10))) {l : List Char} (hl : Ends l) (c : Char) (r : List Char)
    (h : expText e ++ l = c :: r) : c.isDigit = false ∧ c ≠ '.' ∧ c ≠ '-' ∧ c ≠ '+' := by
  cases e with
  | none =>
    obtain ⟨a, b, -, d, e⟩ := white_facts (hl.head c r h)
    exact ⟨a, b, d, e⟩
  | some p =>
    obtain ⟨u, s, ds⟩ := p
    cases h
    cases u <;> decide

/-- **C103, numbers.** A number in decimal notation, after white space and before white space or the end, is read with
    its value, and reading stops right after it. -/
theorem C103_number (a : Dec) (ha : a.Proper) {b l : List Char} (hb : Blank b) (hl : Ends l) :
    ∃ m k : ℤ, readDouble (b ++ (a.text ++ l)) = some (m, k, l) ∧ decimal m k = a.value := by
  obtain ⟨h1, h2⟩ := ha
  obtain ⟨k, hk, ek⟩ := readExponent_text h2 hl
  set tail := fracText a.frac ++ (expText a.exp ++ l) with htail
  have n1 : NoDigit tail := by
    intro c r e
    cases hf : a.frac with
    | none => rw [htail, hf] at e; exact (expText_head _ hl c r e).1
    | some ds => rw [htail, hf] at e; cases e; decide
  have s1 : ∀ c r, digitText a.whole ++ tail = c :: r → (c ≠ '-' ∧ c ≠ '+') ∧ c.isWhitespace = false := by
    intro c r e
    by_cases hw : a.whole = []
    · obtain ⟨ds, hf, -⟩ := h1.resolve_left (not_not.2 hw)
      rw [hw, htail, hf] at e
      cases e
      decide
    · obtain ⟨d, r', e'⟩ := digitText_head hw (l := tail)
      rw [e'] at e
      cases e
      have := digit_facts d
      exact ⟨⟨this.2.2.1, this.2.2.2.1⟩, this.2.2.2.2.2.2⟩
  have s2 : ∀ c r, a.text ++ l = c :: r → c.isWhitespace = false := by
    intro c r e
    have e' : signText a.sign ++ (digitText a.whole ++ tail) = c :: r := by
      rw [← e, Dec.text, htail]; simp only [List.append_assoc]
    rcases hs : a.sign with _ | _ | _
    · rw [hs] at e'; exact (s1 c r e').2
    · rw [hs] at e'; cases e'; decide
    · rw [hs] at e'; cases e'; decide
  have eS : readSign ((b ++ (a.text ++ l)).dropWhile Char.isWhitespace) = (a.sign == some true, digitText a.whole ++ tail) := by
    rw [dropWhile_blank hb s2]
    have : a.text ++ l = signText a.sign ++ (digitText a.whole ++ tail) := by
      rw [Dec.text, htail]; simp only [List.append_assoc]
    rw [this]
    exact readSign_text _ fun c r e => (s1 c r e).1
  have eF : readFraction tail = (natVal (a.frac.getD []), (a.frac.getD []).length, expText a.exp ++ l) :=
    readFraction_text a.frac (fun c r e => (expText_head _ hl c r e).1) fun c r e => (expText_head _ hl c r e).2.1
  have hz : ¬ (a.whole.length + (a.frac.getD []).length = 0) := by
    rcases h1 with h | ⟨ds, h, hd⟩
    · have := List.length_pos_iff.2 h; omega
    · rw [h]; have := List.length_pos_iff.2 hd; simp only [Option.getD_some]; omega
  refine ⟨if (a.sign == some true) = true
      then -((natVal a.whole * 10 ^ (a.frac.getD []).length + natVal (a.frac.getD []) : ℕ) : ℤ)
      else ((natVal a.whole * 10 ^ (a.frac.getD []).length + natVal (a.frac.getD []) : ℕ) : ℤ),
    k - ((a.frac.getD []).length : ℤ),
    by simp only [readDouble, eS, readDigits_text a.whole n1, eF, if_neg hz, hk, Option.map_some], ?_⟩
  have h10 : (10 : ℝ) ≠ 0 := by norm_num
  have hv : (wholeVal a.whole + fracVal (a.frac.getD [])) * expVal a.exp
      = ((natVal a.whole * 10 ^ (a.frac.getD []).length + natVal (a.frac.getD []) : ℕ) : ℝ)
        * (10 : ℝ) ^ (k - ((a.frac.getD []).length : ℤ)) := by
    rw [ek, wholeVal_nat, zpow_sub₀ h10, zpow_natCast]
    push_cast
    rw [← fracVal_nat (a.frac.getD [])]
    field_simp
  unfold decimal Dec.value signed
  rw [hv]
  by_cases h : a.sign = some true
  · rw [if_pos h, if_pos (by simp [h])]
    push_cast
    ring
  · have h' : ¬ (a.sign == some true) = true := by simpa using h
    rw [if_neg h, if_neg h']
    push_cast
    rfl

theorem digit_of {c : Char} (h : c.isDigit = true) : ∃ d : Fin 10, Nat.digitChar d.val = c := by
  simp only [Char.isDigit, Bool.and_eq_true, decide_eq_true_eq] at h
  obtain ⟨h1, h2⟩ := h
  have e : Char.ofNat c.toNat = c := Char.ofNat_toNat c
  have h1' : 48 ≤ c.toNat := h1
  have h2' : c.toNat ≤ 57 := h2
  refine ⟨⟨c.toNat - 48, by omega⟩, ?_⟩
  refine Eq.trans ?_ e
  show Nat.digitChar (c.toNat - 48) = _
  generalize c.toNat = k at h1' h2'
  interval_cases k <;> decide

theorem readDigits_inv (l : List Char) : ∃ ds r, l = digitText ds ++ r ∧ readDigits l = (natVal ds, ds.length, r) := by
  induction l with
  | nil => exact ⟨[], [], rfl, rfl⟩
  | cons c l ih =>
    by_cases h : c.isDigit = true
    · obtain ⟨ds, r, e, hr⟩ := ih
      obtain ⟨d, rfl⟩ := digit_of h
      refine ⟨d :: ds, r, by rw [e]; rfl, ?_⟩
      rw [readDigits, if_pos h, hr]
      simp only [(digit_facts d).2.1, natVal, List.length_cons]
    · exact ⟨[], c :: l, rfl, by rw [readDigits, if_neg h]; rfl⟩

theorem readSign_inv (l : List Char) : ∃ s r, l = signText s ++ r ∧ readSign l = (s == some true, r) := by
  unfold readSign
  split
  · exact ⟨some true, _, rfl, rfl⟩
  · exact ⟨some false, _, rfl, rfl⟩
  · exact ⟨none, _, rfl, rfl⟩

theorem readFraction_inv (l : List Char) : ∃ f r, l = fracText f ++ r ∧
    readFraction l = (natVal (f.getD []), (f.getD []).length, r) := by
  unfold readFraction
  split
  · rename_i l
    obtain ⟨ds, r, e, h⟩ := readDigits_inv l
    exact ⟨some ds, r, by rw [e]; rfl, h⟩
  · exact ⟨none, _, rfl, rfl⟩

theorem exp_signed (s : Option Bool) (ds : List (Fin 10)) : (10 : ℝ) ^ (signed s (wholeVal ds))
    = (10 : ℝ) ^ (if (s == some true) = true then -(natVal ds : ℤ) else natVal ds) := by
  rw [signed, wholeVal_nat]
  by_cases h : s = some true
  · simp only [h, if_true, beq_self_eq_true]
    rw [← Real.rpow_intCast]; push_cast; rfl
  · have h' : ¬ (s == some true) = true := by simpa using h
    rw [if_neg h, if_neg h']
    rw [← Real.rpow_intCast]; push_cast; rfl

theorem readExponent_inv {l r : List Char} {k : ℤ} (h : readExponent l = some (k, r)) :
    ∃ e, l = expText e ++ r ∧ (∀ u s ds, e = some (u, s, ds) → ds ≠ []) ∧ expVal e = (10 : ℝ) ^ k := by
  have key : ∀ (u : Bool) (l : List Char), (if (readDigits (readSign l).2).2.1 = 0 then none
      else some (if (readSign l).1 then -((readDigits (readSign l).2).1 : ℤ) else (readDigits (readSign l).2).1,
        (readDigits (readSign l).2).2.2)) = some (k, r) →
      ∃ e, (if u then 'E' else 'e') :: l = expText e ++ r ∧ (∀ u s ds, e = some (u, s, ds) → ds ≠ []) ∧
        expVal e = (10 : ℝ) ^ k := by
    intro u l h
    obtain ⟨s, r1, e1, h1⟩ := readSign_inv l
    obtain ⟨ds, r2, e2, h2⟩ := readDigits_inv r1
    rw [h1, h2] at h
    dsimp only at h
    split_ifs at h with h3 h4
    · simp only [Option.some.injEq, Prod.mk.injEq] at h
      obtain ⟨rfl, rfl⟩ := h
      refine ⟨some (u, s, ds), by rw [e1, e2]; simp [expText], ?_, ?_⟩
      · rintro _ _ _ ⟨⟩ rfl; exact h3 rfl
      · show (10 : ℝ) ^ (signed s (wholeVal ds)) = _
        rw [exp_signed, if_pos h4]
    · simp only [Option.some.injEq, Prod.mk.injEq] at h
      obtain ⟨rfl, rfl⟩ := h
      refine ⟨some (u, s, ds), by rw [e1, e2]; simp [expText], ?_, ?_⟩
      · rintro _ _ _ ⟨⟩ rfl; exact h3 rfl
      · show (10 : ℝ) ^ (signed s (wholeVal ds)) = _
        rw [exp_signed, if_neg h4]
  unfold readExponent at h
  split at h
  · exact key false _ h
  · exact key true _ h
  · cases h
    exact ⟨none, rfl, fun _ _ _ h => (by cases h), by simp [expVal]⟩

/-- **C103, nothing else.** Whatever is accepted begins with a number in decimal notation after optional white space, and
    the value taken is the value of that number. -/
theorem C103_accepts (l r : List Char) (m k : ℤ) (h : readDouble l = some (m, k, r)) :
    ∃ b a, Blank b ∧ Dec.Proper a ∧ l = b ++ (a.text ++ r) ∧ a.value = decimal m k := by
  obtain ⟨s, r1, e1, h1⟩ := readSign_inv (l.dropWhile Char.isWhitespace)
  obtain ⟨ds, r2, e2, h2⟩ := readDigits_inv r1
  obtain ⟨f, r3, e3, h3⟩ := readFraction_inv r2
  simp only [readDouble, h1, h2, h3] at h
  by_cases hz : ds.length + (f.getD []).length = 0
  · rw [if_pos hz] at h; cases h
  rw [if_neg hz, Option.map_eq_some_iff] at h
  obtain ⟨⟨j, r4⟩, h4, h⟩ := h
  obtain ⟨e, e4, he, hv⟩ := readExponent_inv h4
  simp only [Prod.mk.injEq] at h
  obtain ⟨hm, hk, rfl⟩ := h
  refine ⟨l.takeWhile Char.isWhitespace, ⟨s, ds, f, e⟩, fun c hc => List.mem_takeWhile_imp hc, ⟨?_, he⟩, ?_, ?_⟩
  · by_contra hc
    push Not at hc
    obtain ⟨h5, h6⟩ := hc
    have h5' : ds = [] := h5
    rw [h5'] at hz
    cases f with
    | none => exact hz rfl
    | some g =>
      have h6' : g = [] := h6 g rfl
      rw [h6'] at hz
      exact hz rfl
  · have : l = l.takeWhile Char.isWhitespace ++ l.dropWhile Char.isWhitespace := List.takeWhile_append_dropWhile.symm
    rw [e1, e2, e3, e4] at this
    refine this.trans ?_
    simp only [Dec.text, List.append_assoc]
  · rw [← hk]
    have h10 : (10 : ℝ) ≠ 0 := by norm_num
    have hv : (wholeVal ds + fracVal (f.getD [])) * expVal e
        = ((natVal ds * 10 ^ (f.getD []).length + natVal (f.getD []) : ℕ) : ℝ)
          * (10 : ℝ) ^ (j - ((f.getD []).length : ℤ)) := by
      rw [hv, wholeVal_nat, zpow_sub₀ h10, zpow_natCast]
      push_cast
      rw [← fracVal_nat (f.getD [])]
      field_simp
    unfold decimal Dec.value signed
    dsimp only
    rw [hv, ← hm]
    by_cases h : s = some true
    · rw [if_pos h, if_pos (by simp [h])]
      push_cast
      ring
    · have h' : ¬ (s == some true) = true := by simpa using h
      rw [if_neg h, if_neg h']
      push_cast
      rfl

/-! ### Lines and files -/

/-- the text begins with these numbers, each after optional white space and before white space or the end -/
def Written : List Dec → List Char → Prop
  | [], _ => True
  | a :: as, l => ∃ b r, Blank b ∧ a.Proper ∧ l = b ++ (a.text ++ r) ∧ Ends r ∧ Written as r

/-- **C103, lines.** A line with the four numbers of an orientation is read as that orientation, and a line with a
    parameter as that parameter. -/
theorem C103_lines (line : String) :
    (∀ q : Fin 4 → Dec, Written [q 0, q 1, q 2, q 3] line.toList → stdReader.quat line = some fun i => (q i).value) ∧
    ∀ a : Dec, Written [a] line.toList → stdReader.prop line = some a.value := by
  constructor
  · rintro q ⟨b0, r0, hb0, p0, e0, x0, b1, r1, hb1, p1, e1, x1, b2, r2, hb2, p2, e2, x2, b3, r3, hb3, p3, e3, x3, -⟩
    obtain ⟨m0, k0, d0, v0⟩ := C103_number (q 0) p0 hb0 x0
    obtain ⟨m1, k1, d1, v1⟩ := C103_number (q 1) p1 hb1 x1
    obtain ⟨m2, k2, d2, v2⟩ := C103_number (q 2) p2 hb2 x2
    obtain ⟨m3, k3, d3, v3⟩ := C103_number (q 3) p3 hb3 x3
    rw [← e0] at d0
    rw [← e1] at d1
    rw [← e2] at d2
    rw [← e3] at d3
    have e : readFour line.toList = some ((m0, k0), (m1, k1), (m2, k2), (m3, k3)) := by
      simp [readFour, d0, d1, d2, d3]
    simp only [stdReader, e, Option.map_some, v0, v1, v2, v3]
    congr 1
    funext i
    fin_cases i <;> rfl
  · rintro a ⟨b, r, hb, p, e, x, -⟩
    obtain ⟨m, k, d, v⟩ := C103_number a p hb x
    rw [← e] at d
    simp only [stdReader, d, Option.map_some, v]

theorem takeWhile_word {w : List Char} (hw : ∀ c ∈ w, c.isWhitespace = false) {l : List Char} (hl : Ends l) :
    (w ++ l).takeWhile (fun c => !c.isWhitespace) = w ∧ (w ++ l).dropWhile (fun c => !c.isWhitespace) = l := by
  induction w with
  | nil =>
    rcases hl with rfl | ⟨c, r, rfl, h⟩
    · exact ⟨rfl, rfl⟩
    · simp [h]
  | cons c w ih =>
    have hc := hw c (by simp)
    obtain ⟨h1, h2⟩ := ih fun x hx => hw x (by simp [hx])
    simp [hc, h1, h2]

/-- **C103, first line.** The first line of the orientation file is read as its word and its count. -/
theorem C103_header (line : String) {b w b' l : List Char} {ds : List (Fin 10)} (hb : Blank b) (hw : w ≠ [])
    (hw' : ∀ c ∈ w, c.isWhitespace = false) (hb' : Blank b') (hn : b' ≠ []) (hd : ds ≠ []) (hl : Ends l)
    (hk : natVal ds < 2 ^ 32) (e : line.toList = b ++ (w ++ (b' ++ (digitText ds ++ l)))) :
    stdReader.header line = some (String.ofList w, ⟨natVal ds, hk⟩) := by
  have n1 : NoDigit l := fun c r e => (white_facts (hl.head c r e)).1
  have h1 : (b ++ (w ++ (b' ++ (digitText ds ++ l)))).dropWhile Char.isWhitespace = w ++ (b' ++ (digitText ds ++ l)) := by
    refine dropWhile_blank hb fun c r e => ?_
    cases w with
    | nil => exact absurd rfl hw
    | cons x w => cases e; exact hw' c (by simp)
  have hE : Ends (b' ++ (digitText ds ++ l)) := by
    cases b' with
    | nil => exact absurd rfl hn
    | cons x b' => exact Or.inr ⟨x, _, rfl, hb' x (by simp)⟩
  obtain ⟨h2, h3⟩ := takeWhile_word hw' hE
  have h4 : (b' ++ (digitText ds ++ l)).dropWhile Char.isWhitespace = digitText ds ++ l := by
    refine dropWhile_blank hb' fun c r e => ?_
    obtain ⟨d, r', e'⟩ := digitText_head hd (l := l)
    rw [e'] at e
    cases e
    exact (digit_facts d).2.2.2.2.2.2
  have h5 : ¬ (w.isEmpty = true ∨ ds.length = 0) := by
    simp [hw, hd]
  show readHeader line.toList = _
  simp only [readHeader, e, h1, h2, h3, h4, readDigits_text ds n1, if_neg h5, dif_pos hk]

/-- **C103, files.** Files in which the parameters and orientations are written in decimal notation, one parameter and one
    orientation a line, are the files of a run (C81) with just these parameters and orientations. -/
theorem C103_files (u : ℕ → ℝ) (omp gpu : Bool) (files : String → List String) (optionFile : String) (c : Case)
    (device : Strategy) {ori word props dev first : String} {rest lines : List String}
    (ho : files optionFile = ori :: word :: props :: dev :: rest)
    (hc : word = "voce" ∧ c = .fccA ∨ word = "mts" ∧ c = .fccB)
    (hdev : dev = "CPU" ∧ device = .cpu ∨ dev = "OpenMP" ∧ omp = true ∧ device = .openmp ∨
      dev = "GPU" ∧ gpu = true ∧ device = .gpu)
    {ps : List Dec} (hp : List.Forall₂ (fun line a => Written [a] line.toList) (files props) ps)
    (hf : files ori = first :: lines) {head : String} {k : { k : ℕ // k < 2 ^ 32 }}
    (hh : stdReader.header first = some (head, k)) (hr : head ≠ "#random") {qs : List (Fin 4 → Dec)}
    (hq : List.Forall₂ (fun line (q : Fin 4 → Dec) => Written [q 0, q 1, q 2, q 3] line.toList) lines qs)
    (hN : drvNsv c.type * qs.length < 2 ^ 31 ∧ 36 * qs.length < 2 ^ 31) :
    Files stdReader u omp gpu files optionFile c (ps.map Dec.value) (qs.map fun q i => (q i).value) device where
  options := by
    refine ⟨ori, word, props, dev, rest, ho, hc, hdev, ?_, head, k, by rw [hf]; exact hh, Or.inl ⟨hr, ?_⟩⟩
    · revert hp
      generalize files props = l
      intro hp
      induction hp with
      | nil => rfl
      | cons h _ ih => simp only [List.map_cons, ih, (C103_lines _).2 _ h]
    · rw [hf, List.tail_cons]
      clear hf hN
      induction hq with
      | nil => rfl
      | cons h _ ih => simp only [List.map_cons, ih, (C103_lines _).1 _ h]
  size := by simpa using hN

/-- **C103, refuted for the rest of a line.** Text after the numbers is not looked at, so that a line in another notation
    can be read with another value instead of being reported as malformed: a decimal comma or an exponent written with `d`
    ends the number. -/
theorem C103_refuted_rest : stdReader.prop "168,4" = some 168 ∧ stdReader.prop "1.4d-3" = some (1.4) ∧
    stdReader.quat "1 0 0 0.5d0" = some ![1, 0, 0, 0.5] := by
  refine ⟨?_, ?_, ?_⟩
  · have e : (readDouble "168,4".toList).map (fun a => (a.1, a.2.1)) = some (168, 0) := by decide +kernel
    have : stdReader.prop "168,4" = ((readDouble "168,4".toList).map fun a => (a.1, a.2.1)).map fun p => decimal p.1 p.2 := by
      simp only [stdReader, Option.map_map]; rfl
    rw [this, e]
    norm_num [decimal]
  · have e : (readDouble "1.4d-3".toList).map (fun a => (a.1, a.2.1)) = some (14, -1) := by decide +kernel
    have : stdReader.prop "1.4d-3" = ((readDouble "1.4d-3".toList).map fun a => (a.1, a.2.1)).map
        fun p => decimal p.1 p.2 := by
      simp only [stdReader, Option.map_map]; rfl
    rw [this, e]
    norm_num [decimal]
  · have e : readFour "1 0 0 0.5d0".toList = some ((1, 0), (0, 0), (0, 0), (5, -1)) := by decide +kernel
    simp only [stdReader, e]
    norm_num [decimal]

/-! ### a case that meets the hypotheses -/

/-- `-2.50E+01` -/
def exDec : Dec := ⟨some true, [2], some [5, 0], some (true, some false, [0, 1])⟩

example : exDec.Proper ∧ String.ofList exDec.text = "-2.50E+01" ∧ exDec.value = -25 ∧
    Written [exDec, exDec] "  -2.50E+01\t-2.50E+01 # comment".toList := by
  have hp : exDec.Proper := ⟨Or.inl (by simp [exDec]), by rintro u s ds h; simp [exDec] at h; obtain ⟨-, -, rfl⟩ := h; simp⟩
  refine ⟨hp, by decide +kernel, ?_, [' ', ' '], "\t-2.50E+01 # comment".toList, ?_, hp, by decide +kernel,
    Or.inr ⟨'\t', "-2.50E+01 # comment".toList, by decide +kernel, by decide⟩, ['\t'], " # comment".toList, ?_, hp,
    by decide +kernel, Or.inr ⟨' ', "# comment".toList, by decide +kernel, by decide⟩, trivial⟩
  · simp [exDec, Dec.value, signed, wholeVal, fracVal, expVal]
    norm_num
  · intro c hc; simp at hc; rcases hc with rfl | rfl; decide
  · intro c hc; simp at hc; rcases hc with rfl; decide

end Ecm.Props
