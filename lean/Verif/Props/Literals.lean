import Verif.Props.Float64
import Verif.Props.BuiltinFns
import Mathlib.Data.Nat.Digits.Defs
import Mathlib.Tactic.IntervalCases

/-!
# Number and timedelta literals (C38, C39)
-/

set_option linter.unusedSimpArgs false

namespace RE

/-! ## C38 -/

/-- Specification: the digits, in lower and in upper case. -/
def lowerDigits : List Char := ['0', '1', '2', '3', '4', '5', '6', '7', '8', '9', 'a', 'b', 'c', 'd', 'e', 'f']

@[inherit_doc lowerDigits]
def upperDigits : List Char := ['0', '1', '2', '3', '4', '5', '6', '7', '8', '9', 'A', 'B', 'C', 'D', 'E', 'F']

/-- Specification: the text consists of digits of the base (at most 16). -/
def IsDigits (base : Nat) (ds : List Char) : Prop := ∀ c ∈ ds, ∃ d, d < base ∧
  (c = lowerDigits[d]! ∨ c = upperDigits[d]!)

/-- Specification: the number written by one digit. -/
def digitNum (c : Char) : Nat :=
  if c ∈ lowerDigits then lowerDigits.idxOf c else upperDigits.idxOf c

/-- Specification: the number written by a sequence of digits, most significant first. -/
def digitsNum (base : Nat) (ds : List Char) : Nat := Nat.ofDigits base (ds.reverse.map digitNum)

/-- Specification: the exponent part of a number, and the exponent it denotes. -/
inductive IsExponent : List Char → Int → Prop
  | absent : IsExponent [] 0
  | plain (k : Char) (ds : List Char) : (k = 'e' ∨ k = 'E') → ds ≠ [] → IsDigits 10 ds →
      IsExponent (k :: ds) (digitsNum 10 ds)
  | plus (k : Char) (ds : List Char) : (k = 'e' ∨ k = 'E') → ds ≠ [] → IsDigits 10 ds →
      IsExponent (k :: '+' :: ds) (digitsNum 10 ds)
  | minus (k : Char) (ds : List Char) : (k = 'e' ∨ k = 'E') → ds ≠ [] → IsDigits 10 ds →
      IsExponent (k :: '-' :: ds) (-(digitsNum 10 ds : Int))

/-- Specification: `text` is a decimal number with integer digits `ip`, fraction digits `fp` and exponent `e`:
`12`, `12.`, `12.5`, `.5`, each possibly followed by an exponent. -/
def IsDecimal (text ip fp : List Char) (e : Int) : Prop :=
  IsDigits 10 ip ∧ IsDigits 10 fp ∧ (ip ≠ [] ∨ fp ≠ []) ∧
  ∃ mid ex, text = ip ++ mid ++ ex ∧ IsExponent ex e ∧ (mid = '.' :: fp ∨ mid = [] ∧ fp = [])

/-- Specification: the rational number it spells. -/
def decimalNum (ip fp : List Char) (e : Int) : ℚ :=
  ((digitsNum 10 ip : ℚ) + (digitsNum 10 fp : ℚ) / (10 : ℚ) ^ fp.length) * (10 : ℚ) ^ e

/-- Specification: what `Rule(text).evaluate(thing)` gives for a number literal. -/
def floatLiteral (env : Env) (text : List Char) : Except Err Value := runRaw env (.floatLit (String.ofList text)) .none

theorem floatLiteral_eq (env : Env) (text : List Char) :
    floatLiteral env text = (parseFloat text).map Value.dec := by
  unfold floatLiteral runRaw construct
  simp only [build, String.toList_ofList]
  rcases parseFloat text with e | d <;> rfl

theorem digit_cases {base : Nat} (hb : base ≤ 16) {c : Char}
    (h : ∃ d, d < base ∧ (c = lowerDigits[d]! ∨ c = upperDigits[d]!)) :
    ∃ d, d < base ∧ digitVal c = some d ∧ digitNum c = d ∧ c ≠ '_' := by
  obtain ⟨d, hd, hc⟩ := h
  refine ⟨d, hd, ?_⟩
  have h16 : d < 16 := by omega
  clear hd
  have key : ∀ d < 16, ∀ c, (c = lowerDigits[d]! ∨ c = upperDigits[d]!) →
      digitVal c = some d ∧ digitNum c = d ∧ c ≠ '_' := by
    intro d hd c hc
    interval_cases d <;> rcases hc with rfl | rfl <;> decide +kernel
  exact key d h16 c hc

theorem readNat_digits (base : Nat) (hb : base ≤ 16) (ds : List Char) (h : IsDigits base ds) (acc : Nat) :
    readNat base acc ds = some (acc * base ^ ds.length + digitsNum base ds) := by
  induction ds generalizing acc with
  | nil => simp [readNat, digitsNum]
  | cons c cs ih =>
    obtain ⟨d, hd, h1, h2, -⟩ := digit_cases hb (h c (by simp))
    simp only [readNat, h1, hd, if_true]
    rw [ih (fun x hx => h x (by simp [hx]))]
    congr 1
    simp only [digitsNum, List.reverse_cons, List.map_append, List.map_cons, List.map_nil, Nat.ofDigits_append,
      Nat.ofDigits_singleton, List.length_map, List.length_reverse, h2, List.length_cons]
    ring

theorem isDigit_of {c : Char} (h : ∃ d, d < 10 ∧ (c = lowerDigits[d]! ∨ c = upperDigits[d]!)) :
    isDigit c = true := by
  obtain ⟨d, hd, hc⟩ := h
  interval_cases d <;> rcases hc with rfl | rfl <;> rfl

theorem spanDigits_eq (ds rest : List Char) (h : ∀ c ∈ ds, isDigit c = true)
    (hr : ∀ c, rest.head? = some c → isDigit c = false) : spanDigits (ds ++ rest) = (ds, rest) := by
  induction ds with
  | nil =>
    cases rest with
    | nil => rfl
    | cons c cs => simp [spanDigits, hr c rfl]
  | cons d ds ih =>
    simp only [List.cons_append, spanDigits, h d (by simp), if_true]
    rw [ih (fun c hc => h c (by simp [hc]))]

theorem readExponent_eq {ex : List Char} {e : Int} (h : IsExponent ex e) : readExponent ex = some e := by
  cases h with
  | absent => rfl
  | plain k ds hk hne hd =>
    obtain ⟨c, cs, rfl⟩ := List.exists_cons_of_ne_nil hne
    have hc : isDigit c = true := isDigit_of (hd c (by simp))
    have h1 : c ≠ '-' := by rintro rfl; revert hc; decide
    have h2 : c ≠ '+' := by rintro rfl; revert hc; decide
    have h3 := readNat_digits 10 (by omega) _ hd 0
    have : (k == 'e' || k == 'E') = true := by rcases hk with rfl | rfl <;> rfl
    have h4 : takeSign (c :: cs) = (false, c :: cs) := by
      unfold takeSign
      split
      · rename_i heq; exact absurd (List.cons.inj heq).1 h1
      · rename_i heq; exact absurd (List.cons.inj heq).1 h2
      · rfl
    simp only [readExponent, this, if_true, h4, List.isEmpty_cons, Bool.false_eq_true, if_false, h3]
    simp
  | plus k ds hk hne hd =>
    obtain ⟨c, cs, rfl⟩ := List.exists_cons_of_ne_nil hne
    have h3 := readNat_digits 10 (by omega) _ hd 0
    have : (k == 'e' || k == 'E') = true := by rcases hk with rfl | rfl <;> rfl
    simp only [readExponent, takeSign, this, if_true, List.isEmpty_cons, Bool.false_eq_true, if_false, h3]
    simp
  | minus k ds hk hne hd =>
    obtain ⟨c, cs, rfl⟩ := List.exists_cons_of_ne_nil hne
    have h3 := readNat_digits 10 (by omega) _ hd 0
    have : (k == 'e' || k == 'E') = true := by rcases hk with rfl | rfl <;> rfl
    simp only [readExponent, takeSign, this, if_true, List.isEmpty_cons, Bool.false_eq_true, if_false, h3]
    simp

/-- a character of a decimal number -/
def isNumChar (c : Char) : Bool := isDigit c || c == '.' || c == 'e' || c == 'E' || c == '+' || c == '-'

theorem numChar_not {c : Char} (h : isNumChar c = true) : isPySpace c = false ∧ c ≠ '_' := by
  simp only [isNumChar, isDigit, Bool.or_eq_true, Bool.and_eq_true, decide_eq_true_eq, beq_iff_eq] at h
  rcases h with ((((h | rfl) | rfl) | rfl) | rfl) | rfl
  · constructor
    · simp only [isPySpace, Bool.or_eq_false_iff, Bool.and_eq_false_iff, decide_eq_false_iff_not, beq_eq_false_iff_ne]
      omega
    · rintro rfl; revert h; decide
  all_goals decide

theorem isExponent_numChars {ex : List Char} {e : Int} (h : IsExponent ex e) : ∀ c ∈ ex, isNumChar c = true := by
  have hd : ∀ ds : List Char, IsDigits 10 ds → ∀ c ∈ ds, isNumChar c = true := by
    intro ds h c hc
    simp [isNumChar, isDigit_of (h c hc)]
  cases h with
  | absent => simp
  | plain k ds hk hne hds =>
    intro c hc
    rcases List.mem_cons.1 hc with rfl | hc
    · rcases hk with rfl | rfl <;> rfl
    · exact hd ds hds c hc
  | plus k ds hk hne hds =>
    intro c hc
    simp only [List.mem_cons] at hc
    rcases hc with rfl | rfl | hc
    · rcases hk with rfl | rfl <;> rfl
    · rfl
    · exact hd ds hds c hc
  | minus k ds hk hne hds =>
    intro c hc
    simp only [List.mem_cons] at hc
    rcases hc with rfl | rfl | hc
    · rcases hk with rfl | rfl <;> rfl
    · rfl
    · exact hd ds hds c hc

theorem dropWhile_none {α : Type} (p : α → Bool) (xs : List α) (h : ∀ x ∈ xs, p x = false) : xs.dropWhile p = xs := by
  cases xs with
  | nil => rfl
  | cons x xs => simp [List.dropWhile, h x (by simp)]

theorem pyStrip_numChars {s : List Char} (h : ∀ c ∈ s, isNumChar c = true) : pyStrip s = s := by
  unfold pyStrip
  rw [dropWhile_none _ _ (fun c hc => (numChar_not (h c hc)).1),
    dropWhile_none _ _ (fun c hc => (numChar_not (h c (by simpa using hc))).1), List.reverse_reverse]

/-- the numbers a Decimal can represent: see `decRepresentable` -/
theorem decimalOfString_signed (neg : Bool) {text ip fp : List Char} {e : Int} (h : IsDecimal text ip fp e) :
    decimalOfString ((if neg then ['-'] else []) ++ text) =
      if decRepresentable (digitsNum 10 (ip ++ fp)) (e - fp.length)
      then some (.fin neg (digitsNum 10 (ip ++ fp)) (e - fp.length)) else none := by
  obtain ⟨h1, h2, h3, mid, ex, rfl, h4, h5⟩ := h
  have hd : ∀ ds : List Char, IsDigits 10 ds → ∀ c ∈ ds, isDigit c = true := fun ds h c hc => isDigit_of (h c hc)
  have hnum : ∀ c ∈ ip ++ mid ++ ex, isNumChar c = true := by
    intro c hc
    simp only [List.mem_append] at hc
    rcases hc with (hc | hc) | hc
    · simp [isNumChar, hd ip h1 c hc]
    · rcases h5 with rfl | ⟨rfl, -⟩
      · rcases List.mem_cons.1 hc with rfl | hc
        · rfl
        · simp [isNumChar, hd fp h2 c hc]
      · simp at hc
    · exact isExponent_numChars h4 c hc
  have hnum' : ∀ c ∈ (if neg then ['-'] else []) ++ (ip ++ mid ++ ex), isNumChar c = true := by
    intro c hc
    rcases List.mem_append.1 hc with hc | hc
    · split at hc
      · simp only [List.mem_singleton] at hc; subst hc; rfl
      · simp at hc
    · exact hnum c hc
  have hf : (pyStrip ((if neg then ['-'] else []) ++ (ip ++ mid ++ ex))).filter (· != '_') =
      (if neg then ['-'] else []) ++ (ip ++ mid ++ ex) := by
    rw [pyStrip_numChars hnum', List.filter_eq_self]
    intro c hc
    simpa using (numChar_not (hnum' c hc)).2
  -- the first character is a digit or a dot
  have hfirst : ∃ c cs, ip ++ mid ++ ex = c :: cs ∧ (isDigit c = true ∨ c = '.') := by
    cases ip with
    | cons c cs => exact ⟨c, cs ++ mid ++ ex, rfl, .inl (hd _ h1 c (by simp))⟩
    | nil =>
      rcases h5 with rfl | ⟨rfl, rfl⟩
      · exact ⟨'.', fp ++ ex, rfl, .inr rfl⟩
      · simp at h3
  have hexd : ∀ c, ex.head? = some c → isDigit c = false := by
    intro c hc
    cases h4 with
    | absent => simp at hc
    | plain k ds hk => rcases hk with rfl | rfl <;> (simp at hc; subst hc; rfl)
    | plus k ds hk => rcases hk with rfl | rfl <;> (simp at hc; subst hc; rfl)
    | minus k ds hk => rcases hk with rfl | rfl <;> (simp at hc; subst hc; rfl)
  have hspan : spanDigits (ip ++ mid ++ ex) = (ip, mid ++ ex) := by
    rw [List.append_assoc]
    apply spanDigits_eq _ _ (hd ip h1)
    intro c hc
    rcases h5 with rfl | ⟨rfl, -⟩
    · simp at hc; subst hc; rfl
    · exact hexd c (by simpa using hc)
  have hmid : takeFraction (mid ++ ex) = (fp, ex) := by
    rcases h5 with rfl | ⟨rfl, rfl⟩
    · simp only [List.cons_append, takeFraction]
      exact spanDigits_eq fp ex (hd fp h2) hexd
    · simp only [List.nil_append]
      unfold takeFraction
      split
      · cases h4 <;> simp_all
      · rfl
  have hemp : (ip.isEmpty && fp.isEmpty) = false := by
    rcases h3 with h | h <;> cases ip <;> cases fp <;> simp_all
  have hread : readNat 10 0 (ip ++ fp) = some (digitsNum 10 (ip ++ fp)) := by
    rw [readNat_digits 10 (by omega) _ (fun c hc => by
      rcases List.mem_append.1 hc with hc | hc
      · exact h1 c hc
      · exact h2 c hc)]
    simp
  have hexp := readExponent_eq h4
  unfold decimalOfString
  rw [hf]
  generalize ht : ip ++ mid ++ ex = t at *
  obtain ⟨c, cs, rfl, hc⟩ := hfirst
  have hsign : takeSign ((if neg then ['-'] else []) ++ c :: cs) = (neg, c :: cs) := by
    cases neg with
    | true => rfl
    | false =>
      show takeSign (c :: cs) = _
      unfold takeSign
      split
      · rename_i heq; simp only [List.cons.injEq] at heq; exfalso; rw [heq.1] at hc; revert hc; decide
      · rename_i heq; simp only [List.cons.injEq] at heq; exfalso; rw [heq.1] at hc; revert hc; decide
      · rfl
  have hlow : asciiLower c = c := by
    rcases hc with h | rfl
    · simp only [isDigit, Bool.and_eq_true, decide_eq_true_eq] at h
      unfold asciiLower
      rw [if_neg]
      simp only [Bool.and_eq_true, decide_eq_true_eq]; omega
    · rfl
  have hne : ∀ x ∈ ['i', 's', 'n'], c ≠ x := by
    intro x hx
    simp only [List.mem_cons, List.not_mem_nil, or_false] at hx
    rcases hx with rfl | rfl | rfl <;> rintro rfl <;> revert hc <;> decide
  have e1 : ((asciiLower c :: cs.map asciiLower) == "inf".toList) = false := by
    rw [hlow, show "inf".toList = ['i', 'n', 'f'] by decide, beq_eq_false_iff_ne]
    intro h
    exact hne 'i' (by simp) (List.cons.inj h).1
  have e2 : ((asciiLower c :: cs.map asciiLower) == "infinity".toList) = false := by
    rw [hlow, show "infinity".toList = ['i', 'n', 'f', 'i', 'n', 'i', 't', 'y'] by decide, beq_eq_false_iff_ne]
    intro h
    exact hne 'i' (by simp) (List.cons.inj h).1
  have e3 : dropS (asciiLower c :: cs.map asciiLower) = c :: cs.map asciiLower := by
    rw [hlow]
    unfold dropS
    split
    · rename_i heq; exact absurd (List.cons.inj heq).1 (hne 's' (by simp))
    · rfl
  have e4 : "nan".toList.isPrefixOf (c :: cs.map asciiLower) = false := by
    have := hne 'n' (by simp)
    rw [show "nan".toList = ['n', 'a', 'n'] by decide]
    simp [List.isPrefixOf, Ne.symm this]
  simp only [hsign, List.map_cons, e1, e2, e3, e4, Bool.or_false, Bool.false_and, Bool.false_eq_true, if_false]
  simp only [readFinite, hsign, hspan, hmid, hemp, hread, hexp, Bool.false_eq_true, if_false]

theorem decimalOfString_decimal {text ip fp : List Char} {e : Int} (h : IsDecimal text ip fp e) :
    decimalOfString text =
      if decRepresentable (digitsNum 10 (ip ++ fp)) (e - fp.length)
      then some (.fin false (digitsNum 10 (ip ++ fp)) (e - fp.length)) else none :=
  decimalOfString_signed false h

theorem digitsNum_append (ip fp : List Char) :
    digitsNum 10 (ip ++ fp) = digitsNum 10 ip * 10 ^ fp.length + digitsNum 10 fp := by
  simp only [digitsNum, List.reverse_append, List.map_append, Nat.ofDigits_append, List.length_map, List.length_reverse]
  ring

theorem finVal_decimal (ip fp : List Char) (e : Int) :
    finVal false (digitsNum 10 (ip ++ fp)) (e - fp.length) = decimalNum ip fp e := by
  unfold finVal decimalNum
  rw [digitsNum_append]
  have h10 : (10 : ℚ) ≠ 0 := by norm_num
  rw [zpow_sub₀ h10, zpow_natCast]
  have : (10 : ℚ) ^ fp.length ≠ 0 := pow_ne_zero _ h10
  simp only [Bool.false_eq_true, if_false]
  push_cast
  field_simp

/-- Specification: a leading zero followed by another digit. -/
def LeadingZero (text : List Char) : Prop := ∃ c rest, text = '0' :: c :: rest ∧ IsDigits 10 [c]

/-- a decimal number without a superfluous leading zero is read by `decimal.Decimal` -/
theorem parseFloat_decimal {text ip fp : List Char} {e : Int} (h : IsDecimal text ip fp e) (hz : ¬ LeadingZero text) :
    parseFloat text = match decimalOfString text with
      | some d => .ok d
      | none => .error (.eng .floatSyntax) := by
  unfold parseFloat
  split
  · rename_i c rest
    have hcd : isDigit c = false := by
      by_contra hc
      apply hz
      refine ⟨c, rest, rfl, ?_⟩
      intro x hx
      simp only [List.mem_singleton] at hx
      subst hx
      simp only [isDigit, Bool.and_eq_true, decide_eq_true_eq, Bool.not_eq_false] at hc
      refine ⟨x.toNat - 48, by omega, .inl ?_⟩
      have key : ∀ n, 48 ≤ n → n ≤ 57 → Char.ofNat n = lowerDigits[n - 48]! := by
        intro n h1 h2; interval_cases n <;> rfl
      have := key x.toNat hc.1 hc.2
      rwa [Char.ofNat_toNat] at this
    -- the second character of a decimal number is not b, o or x
    have hnum : isNumChar c = true := by
      obtain ⟨h1, h2, h3, mid, ex, ht, h4, h5⟩ := h
      have hc : c ∈ ip ++ mid ++ ex := by rw [← ht]; simp
      simp only [List.mem_append] at hc
      rcases hc with (hc | hc) | hc
      · simp [isNumChar, isDigit_of (h1 c hc)]
      · rcases h5 with rfl | ⟨rfl, -⟩
        · rcases List.mem_cons.1 hc with rfl | hc
          · rfl
          · simp [isNumChar, isDigit_of (h2 c hc)]
        · simp at hc
      · exact isExponent_numChars h4 c hc
    have hb : (c == 'b') = false := by rw [beq_eq_false_iff_ne]; rintro rfl; revert hnum; decide
    have ho : (c == 'o') = false := by rw [beq_eq_false_iff_ne]; rintro rfl; revert hnum; decide
    have hx : (c == 'x') = false := by rw [beq_eq_false_iff_ne]; rintro rfl; revert hnum; decide
    simp only [hcd, hb, ho, hx, Bool.false_eq_true, if_false]
    rfl
  · rfl

/-- **C38**: a decimal number literal without a superfluous leading zero denotes exactly the number it spells.  If the
exponent is beyond what a Decimal can represent at all (about ± 10^18) a FloatSyntaxError is raised instead. -/
theorem decimal_literal_exact (env : Env) (text ip fp : List Char) (e : Int) (h : IsDecimal text ip fp e)
    (hz : ¬ LeadingZero text) :
    (∃ d, floatLiteral env text = .ok (.dec d) ∧ d.num = some (decimalNum ip fp e)) ∨
    (floatLiteral env text = .error (.eng .floatSyntax) ∧
      decRepresentable (digitsNum 10 (ip ++ fp)) (e - fp.length) = false) := by
  rw [floatLiteral_eq]
  have hdec := decimalOfString_decimal h
  rw [parseFloat_decimal h hz, hdec]
  by_cases hr : decRepresentable (digitsNum 10 (ip ++ fp)) (e - fp.length) = true
  · left
    rw [if_pos hr]
    exact ⟨_, rfl, by simp only [Dec.num, finVal_decimal]⟩
  · right
    rw [if_neg hr]
    exact ⟨rfl, by simpa using hr⟩

/-- **C38**: decimal literals with a leading zero followed by a digit are rejected. -/
theorem leading_zero_rejected (env : Env) (text : List Char) (h : LeadingZero text) :
    floatLiteral env text = .error (.eng .floatSyntax) := by
  obtain ⟨c, rest, rfl, hc⟩ := h
  rw [floatLiteral_eq]
  simp only [parseFloat, isDigit_of (hc c (by simp)), if_true]
  rfl

theorem dropUnderscores_digits (base : Nat) (hb : base ≤ 16) (ds : List Char) (h : IsDigits base ds) :
    dropUnderscores ds = some ds := by
  induction ds with
  | nil => rfl
  | cons c cs ih =>
    obtain ⟨d, -, -, -, hc⟩ := digit_cases hb (h c (by simp))
    have ih := ih (fun x hx => h x (by simp [hx]))
    unfold dropUnderscores
    split
    · rename_i heq; simp at heq
    · rename_i heq; exact absurd (List.cons.inj heq).1 hc
    · rename_i heq; exact absurd (List.cons.inj heq).1 hc
    · rename_i heq
      simp only [List.cons.injEq] at heq
      rw [← heq.1, ← heq.2, ih]; rfl

/-- **C38**: `0b`, `0o` and `0x` literals denote the whole number they spell in base 2, 8 and 16. -/
theorem prefixed_literal_exact (env : Env) (base : Nat) (letter : Char) (ds : List Char)
    (hl : (base, letter) ∈ [(2, 'b'), (8, 'o'), (16, 'x')]) (hne : ds ≠ []) (hd : IsDigits base ds) :
    floatLiteral env ('0' :: letter :: ds) = .ok (.dec (.ofInt (digitsNum base ds))) := by
  rw [floatLiteral_eq]
  obtain ⟨c, cs, rfl⟩ := List.exists_cons_of_ne_nil hne
  have hb : base ≤ 16 := by
    simp only [List.mem_cons, Prod.mk.injEq, List.not_mem_nil, or_false] at hl
    omega
  have hr : readPrefixed base (c :: cs) = some (digitsNum base (c :: cs)) := by
    simp only [readPrefixed, dropUnderscores_digits base hb _ hd, readNat_digits base hb _ hd]
    simp
  simp only [List.mem_cons, Prod.mk.injEq, List.not_mem_nil, or_false] at hl
  rcases hl with ⟨rfl, rfl⟩ | ⟨rfl, rfl⟩ | ⟨rfl, rfl⟩
  · have : isDigit 'b' = false := rfl
    simp only [parseFloat, this, Bool.false_eq_true, if_false, beq_self_eq_true, if_true, hr]; rfl
  · have h1 : isDigit 'o' = false := rfl
    have h2 : ('o' == 'b') = false := rfl
    simp only [parseFloat, h1, h2, Bool.false_eq_true, if_false, beq_self_eq_true, if_true, hr]; rfl
  · have h1 : isDigit 'x' = false := rfl
    have h2 : ('x' == 'b') = false := rfl
    have h3 : ('x' == 'o') = false := rfl
    simp only [parseFloat, h1, h2, h3, Bool.false_eq_true, if_false, beq_self_eq_true, if_true, hr]; rfl

/-- Witness for C38: `12.50e-1` is 5/4, `0xfF` is 255, `007` is rejected. -/
theorem literal_witness :
    floatLiteral sampleEnv "12.50e-1".toList = .ok (.dec (.fin false 1250 (-3))) ∧
    floatLiteral sampleEnv "0xfF".toList = .ok (.dec (.ofInt 255)) ∧
    floatLiteral sampleEnv "007".toList = .error (.eng .floatSyntax) ∧
    floatLiteral sampleEnv "1e1000000000000000000".toList = .error (.eng .floatSyntax) ∧
    (∃ ip fp e, IsDecimal "12.50e-1".toList ip fp e ∧ decimalNum ip fp e = 5 / 4) ∧
    digitsNum 16 "fF".toList = 255 := by
  refine ⟨by decide +kernel, by decide +kernel, by decide +kernel, by decide +kernel, ?_, by decide +kernel⟩
  refine ⟨"12".toList, "50".toList, -1, ⟨?_, ?_, by decide, ".50".toList, "e-1".toList, by decide, ?_, by decide⟩, ?_⟩
  · intro c hc
    have : c = '1' ∨ c = '2' := by simpa using hc
    rcases this with rfl | rfl
    · exact ⟨1, by decide, by decide⟩
    · exact ⟨2, by decide, by decide⟩
  · intro c hc
    have : c = '5' ∨ c = '0' := by simpa using hc
    rcases this with rfl | rfl
    · exact ⟨5, by decide, by decide⟩
    · exact ⟨0, by decide, by decide⟩
  · exact .minus 'e' ['1'] (.inl rfl) (by simp) (by
      intro c hc
      simp only [List.mem_singleton] at hc
      subst hc
      exact ⟨1, by decide, by decide⟩)
  · have h1 : digitsNum 10 "12".toList = 12 := by decide +kernel
    have h2 : digitsNum 10 "50".toList = 50 := by decide +kernel
    have h3 : "50".toList.length = 2 := by decide
    unfold decimalNum
    rw [h1, h2, h3]
    norm_num

/-! ## C39 -/

/-- Specification: one component of a duration: digits, possibly a fraction, and the letter of its unit. -/
inductive IsComponent (letter : Char) : List Char → List Char → List Char → Prop
  | whole (ip : List Char) : ip ≠ [] → IsDigits 10 ip → IsComponent letter (ip ++ [letter]) ip []
  | fraction (ip fp : List Char) (sep : Char) : ip ≠ [] → IsDigits 10 ip → fp ≠ [] → IsDigits 10 fp →
      (sep = '.' ∨ sep = ',') → IsComponent letter (ip ++ sep :: fp ++ [letter]) ip fp

/-- Specification: a component or nothing. -/
inductive IsOptional (letter : Char) : List Char → Option (List Char × List Char) → Prop
  | absent : IsOptional letter [] none
  | present (text ip fp : List Char) : IsComponent letter text ip fp → IsOptional letter text (some (ip, fp))

/-- Specification: the components of a duration, as integer and fraction digits. -/
structure Duration where
  weeks : Option (List Char × List Char)
  days : Option (List Char × List Char)
  hours : Option (List Char × List Char)
  minutes : Option (List Char × List Char)
  seconds : Option (List Char × List Char)

/-- Specification: `[nW][nD][T[nH][nM][nS]]`. -/
inductive IsDurationBody : List Char → Duration → Prop
  | dates (w d : List Char) (weeks days) : IsOptional 'W' w weeks → IsOptional 'D' d days →
      IsDurationBody (w ++ d) ⟨weeks, days, none, none, none⟩
  | times (w d h m s : List Char) (weeks days hours minutes seconds) : IsOptional 'W' w weeks → IsOptional 'D' d days →
      IsOptional 'H' h hours → IsOptional 'M' m minutes → IsOptional 'S' s seconds →
      IsDurationBody (w ++ d ++ 'T' :: (h ++ m ++ s)) ⟨weeks, days, hours, minutes, seconds⟩

/-- Specification: the texts of durations: `P` and a non-empty body, possibly followed by a newline. -/
def IsDuration (text : List Char) (p : Duration) : Prop :=
  ∃ body, body ≠ [] ∧ IsDurationBody body p ∧ (text = 'P' :: body ∨ text = 'P' :: body ++ ['\n'])

/-- Specification: no component has a fraction. -/
def Duration.Whole (p : Duration) : Prop :=
  ∀ c ∈ [p.weeks, p.days, p.hours, p.minutes, p.seconds], ∀ x, c = some x → x.2 = []

/-- Specification: the number of a component, 0 if it is absent. -/
def componentNum : Option (List Char × List Char) → Int
  | some (ip, _) => digitsNum 10 ip
  | none => 0

/-- Specification: the sum of the components in microseconds, for durations without fractions. -/
def Duration.total (p : Duration) : Int :=
  1000000 * (componentNum p.seconds + 60 * (componentNum p.minutes + 60 * (componentNum p.hours +
    24 * (componentNum p.days + 7 * componentNum p.weeks))))

/-- Specification: the number of a component with its fraction, 0 if it is absent. -/
def componentRat : Option (List Char × List Char) → ℚ
  | some (ip, fp) => digitsNum 10 ip + digitsNum 10 fp / 10 ^ fp.length
  | none => 0

/-- Specification: the exact sum of the components in microseconds. -/
def Duration.sum (p : Duration) : ℚ :=
  1000000 * (componentRat p.seconds + 60 * (componentRat p.minutes + 60 * (componentRat p.hours +
    24 * (componentRat p.days + 7 * componentRat p.weeks))))

/-- Specification: what `Rule('t"text"').evaluate(thing)` gives. -/
def timedeltaLiteral (env : Env) (text : List Char) : Except Err Value :=
  runRaw env (.timedeltaLit (String.ofList text)) .none

theorem timedeltaLiteral_eq (env : Env) (text : List Char) :
    timedeltaLiteral env text = (parseTimedelta text).map Value.timedelta := by
  unfold timedeltaLiteral runRaw construct
  simp only [build, String.toList_ofList]
  rcases parseTimedelta text with e | d <;> rfl

theorem isDigits_iff (ds : List Char) : IsDigits 10 ds ↔ ∀ c ∈ ds, isDigit c = true := by
  constructor
  · intro h c hc; exact isDigit_of (h c hc)
  · intro h c hc
    have hc := h c hc
    simp only [isDigit, Bool.and_eq_true, decide_eq_true_eq] at hc
    refine ⟨c.toNat - 48, by omega, .inl ?_⟩
    have key : ∀ n, 48 ≤ n → n ≤ 57 → Char.ofNat n = lowerDigits[n - 48]! := by
      intro n h1 h2; interval_cases n <;> rfl
    have := key c.toNat hc.1 hc.2
    rwa [Char.ofNat_toNat] at this

theorem spanDigits_spec (s : List Char) :
    s = (spanDigits s).1 ++ (spanDigits s).2 ∧ IsDigits 10 (spanDigits s).1 := by
  induction s with
  | nil => simp [spanDigits, IsDigits]
  | cons c cs ih =>
    unfold spanDigits
    by_cases hc : isDigit c = true
    · simp only [hc, if_true, List.cons_append, List.cons.injEq, true_and]
      refine ⟨ih.1, ?_⟩
      rw [isDigits_iff] at ih ⊢
      intro x hx
      rcases List.mem_cons.1 hx with rfl | hx
      · exact hc
      · exact ih.2 x hx
    · simp [hc, IsDigits]

/-- the letters of the units, and T -/
def IsLetter (c : Char) : Prop := c ∈ ['W', 'D', 'H', 'M', 'S', 'T']

theorem letter_facts {c : Char} (h : IsLetter c) : isDigit c = false ∧ c ≠ '.' ∧ c ≠ ',' ∧ c ≠ '\n' := by
  simp only [IsLetter, List.mem_cons, List.not_mem_nil, or_false] at h
  rcases h with rfl | rfl | rfl | rfl | rfl | rfl <;> decide

theorem readComponent_component {letter : Char} (hl : IsLetter letter) {text ip fp : List Char}
    (h : IsComponent letter text ip fp) (l' : Char) (hl' : IsLetter l') (rest : List Char) :
    readComponent l' (text ++ rest) = if letter = l' then some (ip, fp, rest) else none := by
  obtain ⟨hd, h1, h2, -⟩ := letter_facts hl
  cases h with
  | whole ip hne hip =>
    have hs : spanDigits (ip ++ [letter] ++ rest) = (ip, letter :: rest) := by
      rw [List.append_assoc]
      exact spanDigits_eq _ _ ((isDigits_iff _).1 hip) (by simp [hd])
    have he : ip.isEmpty = false := by simpa using hne
    simp only [readComponent, hs, he, Bool.false_eq_true, if_false]
    by_cases hll : letter = l'
    · simp [hll]
    · simp [hll, h1, h2]
  | fraction ip fp sep hne hip hne' hfp hsep =>
    have hs : spanDigits (ip ++ sep :: fp ++ [letter] ++ rest) = (ip, sep :: fp ++ letter :: rest) := by
      rw [show ip ++ sep :: fp ++ [letter] ++ rest = ip ++ (sep :: fp ++ letter :: rest) by simp]
      refine spanDigits_eq _ _ ((isDigits_iff _).1 hip) ?_
      intro c hc
      simp at hc
      subst hc
      rcases hsep with rfl | rfl <;> rfl
    have he : ip.isEmpty = false := by simpa using hne
    have he' : fp.isEmpty = false := by simpa using hne'
    have hsl : (sep == l') = false := by
      obtain ⟨-, h3, h4, -⟩ := letter_facts hl'
      rcases hsep with rfl | rfl
      · simpa using Ne.symm h3
      · simpa using Ne.symm h4
    have hsep' : (sep == '.' || sep == ',') = true := by rcases hsep with rfl | rfl <;> rfl
    have hs' : spanDigits (fp ++ letter :: rest) = (fp, letter :: rest) :=
      spanDigits_eq _ _ ((isDigits_iff _).1 hfp) (by simp [hd])
    simp only [readComponent, hs, he, Bool.false_eq_true, if_false, List.cons_append, hsl, hsep', if_true, hs', he']
    by_cases hll : letter = l'
    · simp [hll]
    · simp [hll]

theorem readComponent_sound {l : Char} {s ip fp rest : List Char} (h : readComponent l s = some (ip, fp, rest)) :
    ∃ text, s = text ++ rest ∧ IsComponent l text ip fp := by
  unfold readComponent at h
  obtain ⟨h1, h2⟩ := spanDigits_spec s
  rcases hs : spanDigits s with ⟨a, b⟩
  rw [hs] at h h1 h2
  simp only at h h1 h2
  by_cases he : a.isEmpty = true
  · simp [he] at h
  · have hne : a ≠ [] := by simpa using he
    simp only [he, Bool.false_eq_true, if_false] at h
    cases b with
    | nil => simp at h
    | cons c r =>
      simp only at h
      by_cases hc : c = l
      · subst hc
        simp only [beq_self_eq_true, if_true, Option.some.injEq, Prod.mk.injEq] at h
        obtain ⟨rfl, rfl, rfl⟩ := h
        exact ⟨a ++ [c], by rw [h1]; simp, .whole a hne h2⟩
      · have hc' : (c == l) = false := by simpa using hc
        simp only [hc', Bool.false_eq_true, if_false] at h
        by_cases hsep : (c == '.' || c == ',') = true
        · simp only [hsep, if_true] at h
          obtain ⟨h3, h4⟩ := spanDigits_spec r
          rcases hs' : spanDigits r with ⟨a', b'⟩
          rw [hs'] at h h3 h4
          simp only at h h3 h4
          by_cases he' : a'.isEmpty = true
          · simp [he'] at h
          · have hne' : a' ≠ [] := by simpa using he'
            simp only [he', Bool.false_eq_true, if_false] at h
            cases b' with
            | nil => simp at h
            | cons c' r' =>
              simp only at h
              split at h
              · rename_i hcl
                simp only [beq_iff_eq] at hcl
                subst hcl
                simp only [Option.some.injEq, Prod.mk.injEq] at h
                obtain ⟨rfl, rfl, rfl⟩ := h
                refine ⟨a ++ c :: a' ++ [c'], by rw [h1, h3]; simp, .fraction a a' c hne h2 hne' h4 ?_⟩
                simpa using hsep
              · simp at h
        · simp [hsep] at h

/-- the list of one optional component, as the model has it -/
def componentList (unit : Int) : Option (List Char × List Char) → List (Int × List Char × List Char)
  | some (ip, fp) => [(unit, ip, fp)]
  | none => []

/-- the list of the components of a duration, as the model has it -/
def Duration.components (p : Duration) : List (Int × List Char × List Char) :=
  componentList (7 * dayUs) p.weeks ++ componentList dayUs p.days ++ componentList 3600000000 p.hours ++
    componentList 60000000 p.minutes ++ componentList 1000000 p.seconds

/-- does the text not start with a component of unit `l`? -/
def NoComponent (l : Char) (s : List Char) : Prop := readComponent l s = none

theorem optComponent_of {l : Char} (hl : IsLetter l) (unit : Int) {text : List Char} {o : Option (List Char × List Char)}
    (h : IsOptional l text o) (rest : List Char) (hrest : NoComponent l rest) :
    optComponent l unit (text ++ rest) = (componentList unit o, rest) := by
  cases h with
  | absent => simp only [optComponent, List.nil_append, componentList]; rw [hrest]
  | present _ ip fp h =>
    simp only [optComponent, readComponent_component hl h l hl, if_true, componentList]

theorem noComponent_nil (l : Char) : NoComponent l [] := rfl

theorem noComponent_T (l : Char) (s : List Char) : NoComponent l ('T' :: s) := rfl

theorem noComponent_optional {l l' : Char} (hl : IsLetter l) (hl' : IsLetter l') (hne : l' ≠ l) {text : List Char}
    {o : Option (List Char × List Char)} (h : IsOptional l' text o) (rest : List Char) (hr : NoComponent l rest) :
    NoComponent l (text ++ rest) := by
  cases h with
  | absent => exact hr
  | present _ ip fp h =>
    unfold NoComponent
    rw [readComponent_component hl' h l hl, if_neg hne]

theorem optComponent_sound {l : Char} {unit : Int} {s rest : List Char} {cs : List (Int × List Char × List Char)}
    (h : optComponent l unit s = (cs, rest)) :
    ∃ text o, s = text ++ rest ∧ IsOptional l text o ∧ cs = componentList unit o := by
  unfold optComponent at h
  rcases hr : readComponent l s with _ | ⟨ip, fp, r⟩
  · rw [hr] at h
    simp only [Prod.mk.injEq] at h
    exact ⟨[], none, by simp [h.2], .absent, by simp [componentList, ← h.1]⟩
  · rw [hr] at h
    simp only [Prod.mk.injEq] at h
    obtain ⟨text, h1, h2⟩ := readComponent_sound hr
    exact ⟨text, some (ip, fp), by rw [h1, h.2], .present _ _ _ h2, by simp [componentList, ← h.1]⟩

/-- the part of `timedeltaComponents` after `P` -/
def bodyComponents (rest : List Char) : Option (List (Int × List Char × List Char)) :=
  if rest.isEmpty then none
  else
    let (w, r1) := optComponent 'W' (7 * dayUs) rest
    let (d, r2) := optComponent 'D' dayUs r1
    match r2 with
    | [] => some (w ++ d)
    | 'T' :: r3 =>
      let (h, r4) := optComponent 'H' 3600000000 r3
      let (m, r5) := optComponent 'M' 60000000 r4
      let (sec, r6) := optComponent 'S' 1000000 r5
      if r6.isEmpty then some (w ++ d ++ h ++ m ++ sec) else none
    | _ => none

theorem timedeltaComponents_eq (rest : List Char) : timedeltaComponents ('P' :: rest) =
    bodyComponents (if rest.getLast? = some '\n' then rest.dropLast else rest) := rfl

theorem bodyComponents_complete {body : List Char} {p : Duration} (hne : body ≠ []) (h : IsDurationBody body p) :
    bodyComponents body = some p.components := by
  have he : body.isEmpty = false := by simpa using hne
  have lW : IsLetter 'W' := by simp [IsLetter]
  have lD : IsLetter 'D' := by simp [IsLetter]
  have lH : IsLetter 'H' := by simp [IsLetter]
  have lM : IsLetter 'M' := by simp [IsLetter]
  have lS : IsLetter 'S' := by simp [IsLetter]
  cases h with
  | dates w d weeks days hw hd =>
    have h1 := optComponent_of lW (7 * dayUs) hw d (by
      have := noComponent_optional lW lD (by decide) hd [] (noComponent_nil _)
      simpa using this)
    have h2 := optComponent_of lD dayUs hd [] (noComponent_nil _)
    rw [List.append_nil] at h2
    simp only [bodyComponents, he, Bool.false_eq_true, if_false, h1, h2, Duration.components, componentList,
      List.append_nil]
  | times w d h m s weeks days hours minutes seconds hw hd hh hm hs =>
    have h1 := optComponent_of lW (7 * dayUs) hw (d ++ 'T' :: (h ++ m ++ s))
      (noComponent_optional lW lD (by decide) hd _ (noComponent_T _ _))
    have h2 := optComponent_of lD dayUs hd ('T' :: (h ++ m ++ s)) (noComponent_T _ _)
    have n1 : NoComponent 'H' s := by
      have := noComponent_optional lH lS (by decide) hs [] (noComponent_nil _)
      simpa using this
    have n2 : NoComponent 'M' s := by
      have := noComponent_optional lM lS (by decide) hs [] (noComponent_nil _)
      simpa using this
    have h3 := optComponent_of lH 3600000000 hh (m ++ s) (noComponent_optional lH lM (by decide) hm _ n1)
    have h4 := optComponent_of lM 60000000 hm s n2
    have h5 := optComponent_of lS 1000000 hs [] (noComponent_nil _)
    rw [List.append_nil] at h5
    rw [List.append_assoc] at he ⊢
    have e1 : h ++ m ++ s = h ++ (m ++ s) := List.append_assoc ..
    simp only [bodyComponents, he, Bool.false_eq_true, if_false, h1, h2]
    rw [e1]
    simp only [h3, h4, h5, List.isEmpty_nil, if_true, Duration.components]

theorem bodyComponents_sound {body : List Char} {cs : List (Int × List Char × List Char)}
    (h : bodyComponents body = some cs) : body ≠ [] ∧ ∃ p, IsDurationBody body p ∧ cs = p.components := by
  unfold bodyComponents at h
  by_cases he : body.isEmpty = true
  · simp [he] at h
  · refine ⟨by simpa using he, ?_⟩
    simp only [he, Bool.false_eq_true, if_false] at h
    rcases h1 : optComponent 'W' (7 * dayUs) body with ⟨w, r1⟩
    rcases h2 : optComponent 'D' dayUs r1 with ⟨d, r2⟩
    rw [h1] at h
    simp only [h2] at h
    obtain ⟨tw, ow, e1, hw, rfl⟩ := optComponent_sound h1
    obtain ⟨td, od, e2, hd, rfl⟩ := optComponent_sound h2
    split at h
    · simp only [Option.some.injEq] at h
      refine ⟨⟨ow, od, none, none, none⟩, ?_, ?_⟩
      · rw [e1, e2, List.append_nil]; exact .dates _ _ _ _ hw hd
      · rw [← h]; simp [Duration.components, componentList]
    · rename_i r3
      rcases h3 : optComponent 'H' 3600000000 r3 with ⟨hh, r4⟩
      rcases h4 : optComponent 'M' 60000000 r4 with ⟨mm, r5⟩
      rcases h5 : optComponent 'S' 1000000 r5 with ⟨ss, r6⟩
      rw [h3] at h
      simp only [h4, h5] at h
      obtain ⟨th, oh, e3, hh', rfl⟩ := optComponent_sound h3
      obtain ⟨tm, om, e4, hm', rfl⟩ := optComponent_sound h4
      obtain ⟨ts, os, e5, hs', rfl⟩ := optComponent_sound h5
      split at h
      · rename_i h6
        have : r6 = [] := by simpa using h6
        subst this
        simp only [Option.some.injEq] at h
        refine ⟨⟨ow, od, oh, om, os⟩, ?_, ?_⟩
        · have := IsDurationBody.times _ _ _ _ _ _ _ _ _ _ hw hd hh' hm' hs'
          rw [e1, e2, e3, e4, e5, List.append_nil]
          simpa using this
        · rw [← h]; simp [Duration.components]
      · simp at h
    · simp at h

theorem optional_no_newline {l : Char} (hl : IsLetter l) {text : List Char} {o : Option (List Char × List Char)}
    (h : IsOptional l text o) : '\n' ∉ text := by
  have hd : ∀ ds, IsDigits 10 ds → '\n' ∉ ds := by
    intro ds hds hc
    have := (isDigits_iff ds).1 hds _ hc
    revert this; decide
  have hl' := (letter_facts hl).2.2.2
  cases h with
  | absent => simp
  | present _ ip fp h =>
    cases h with
    | whole _ _ hip =>
      simp only [List.mem_append, List.mem_singleton, not_or]
      exact ⟨hd _ hip, Ne.symm hl'⟩
    | fraction _ _ sep _ hip _ hfp hsep =>
      simp only [List.mem_append, List.mem_cons, List.mem_singleton, not_or, List.not_mem_nil, not_false_eq_true,
        and_true]
      refine ⟨⟨hd _ hip, ?_, hd _ hfp⟩, Ne.symm hl'⟩
      rcases hsep with rfl | rfl <;> decide

theorem body_no_newline {body : List Char} {p : Duration} (h : IsDurationBody body p) : '\n' ∉ body := by
  have lW : IsLetter 'W' := by simp [IsLetter]
  have lD : IsLetter 'D' := by simp [IsLetter]
  have lH : IsLetter 'H' := by simp [IsLetter]
  have lM : IsLetter 'M' := by simp [IsLetter]
  have lS : IsLetter 'S' := by simp [IsLetter]
  cases h with
  | dates w d weeks days hw hd =>
    simp only [List.mem_append, not_or]
    exact ⟨optional_no_newline lW hw, optional_no_newline lD hd⟩
  | times w d h m s weeks days hours minutes seconds hw hd hh hm hs =>
    simp only [List.mem_append, List.mem_cons, not_or]
    exact ⟨⟨optional_no_newline lW hw, optional_no_newline lD hd⟩, by decide,
      ⟨optional_no_newline lH hh, optional_no_newline lM hm⟩, optional_no_newline lS hs⟩

theorem timedeltaComponents_complete {text : List Char} {p : Duration} (h : IsDuration text p) :
    timedeltaComponents text = some p.components := by
  obtain ⟨body, hne, hb, rfl | rfl⟩ := h
  · rw [timedeltaComponents_eq, if_neg, bodyComponents_complete hne hb]
    intro hl
    exact body_no_newline hb (List.mem_of_getLast? hl)
  · rw [List.cons_append, timedeltaComponents_eq, if_pos (by simp), List.dropLast_concat, bodyComponents_complete hne hb]

theorem timedeltaComponents_sound {text : List Char} {cs : List (Int × List Char × List Char)}
    (h : timedeltaComponents text = some cs) : ∃ p, IsDuration text p ∧ cs = p.components := by
  unfold timedeltaComponents at h
  split at h
  · rename_i rest
    change bodyComponents (if rest.getLast? = some '\n' then rest.dropLast else rest) = some cs at h
    obtain ⟨hne, p, hb, rfl⟩ := bodyComponents_sound h
    refine ⟨p, ⟨_, hne, hb, ?_⟩, rfl⟩
    by_cases hl : rest.getLast? = some '\n'
    · right
      simp only [hl, if_true]
      rw [List.cons_append]
      congr 1
      have hr : rest ≠ [] := by rintro rfl; simp at hl
      rw [List.getLast?_eq_some_getLast hr, Option.some.injEq] at hl
      rw [← hl, List.dropLast_append_getLast]
    · left; simp [hl]
  · simp at h

/-- **C39**: a text that is not a duration raises a TimedeltaSyntaxError. -/
theorem not_a_duration (env : Env) (text : List Char) :
    timedeltaLiteral env text = .error (.eng .timedeltaSyntax) ↔ ¬ ∃ p, IsDuration text p := by
  rw [timedeltaLiteral_eq]
  unfold parseTimedelta
  rcases h : timedeltaComponents text with _ | cs
  · simp only [true_iff, Except.map]
    rintro ⟨p, hp⟩
    rw [timedeltaComponents_complete hp] at h
    simp at h
  · obtain ⟨p, hp, -⟩ := timedeltaComponents_sound h
    constructor
    · intro h'
      simp only at h'
      split at h' <;> simp [Except.map] at h'
    · intro h'; exact absurd ⟨p, hp⟩ h'

/-- the components as numbers -/
theorem componentRat_nonneg (o : Option (List Char × List Char)) : 0 ≤ componentRat o := by
  cases o with
  | none => exact le_refl _
  | some x => simp only [componentRat]; positivity

/-- the digits of every component of a duration are digits -/
theorem duration_digits {text : List Char} {p : Duration} (h : IsDuration text p) :
    ∀ o ∈ [p.weeks, p.days, p.hours, p.minutes, p.seconds], ∀ ip fp, o = some (ip, fp) →
      IsDigits 10 ip ∧ IsDigits 10 fp := by
  have key : ∀ (l : Char) (t : List Char) (o : Option (List Char × List Char)), IsOptional l t o →
      ∀ ip fp, o = some (ip, fp) → IsDigits 10 ip ∧ IsDigits 10 fp := by
    intro l t o ho ip fp he
    cases ho with
    | absent => cases he
    | present _ _ _ hc =>
      cases he
      cases hc with
      | whole _ _ hi => exact ⟨hi, fun c hc => by cases hc⟩
      | fraction _ _ _ _ hi _ hf _ => exact ⟨hi, hf⟩
  obtain ⟨body, -, hb, -⟩ := h
  intro o ho
  cases hb with
  | dates w d weeks days hw' hd' =>
    simp only [List.mem_cons, List.not_mem_nil, or_false] at ho
    rcases ho with rfl | rfl | rfl | rfl | rfl
    · exact key _ _ _ hw'
    · exact key _ _ _ hd'
    all_goals intro ip fp he; cases he
  | times w d h m s weeks days hours minutes seconds hw' hd' hh' hm' hs' =>
    simp only [List.mem_cons, List.not_mem_nil, or_false] at ho
    rcases ho with rfl | rfl | rfl | rfl | rfl
    · exact key _ _ _ hw'
    · exact key _ _ _ hd'
    · exact key _ _ _ hh'
    · exact key _ _ _ hm'
    · exact key _ _ _ hs'

/-- the float of a component -/
theorem componentFloat_eq {ip fp : List Char} (hi : IsDigits 10 ip) (hf : IsDigits 10 fp) :
    componentFloat ip fp = fl64 (componentRat (some (ip, fp))) := by
  simp [componentFloat, componentRat, readNat_digits 10 (by omega) ip hi, readNat_digits 10 (by omega) fp hf]

/-- the components that are given to `timedelta` -/
def floatList (unit : Int) (o : Option (List Char × List Char)) : List (Int × ℚ) :=
  (componentList unit o).map (fun c => (c.1, componentFloat c.2.1 c.2.2))

theorem floatList_spec (unit : Int) (hu : 0 ≤ unit) (o : Option (List Char × List Char))
    (h : ∀ ip fp, o = some (ip, fp) → IsDigits 10 ip ∧ IsDigits 10 fp) :
    (∀ c ∈ floatList unit o, 0 ≤ c.1 ∧ 0 ≤ c.2) ∧ (floatList unit o).length ≤ 1 ∧
    unitSum (floatList unit o) ≤ unit ∧
    |exactSum (floatList unit o) - unit * componentRat o| ≤
      unit * componentRat o / 2 ^ 53 + unit / 2 ^ 100 := by
  have hu' : (0 : ℚ) ≤ unit := by exact_mod_cast hu
  cases o with
  | none => simp [floatList, componentList, unitSum, exactSum, componentRat, hu']; positivity
  | some x =>
    obtain ⟨ip, fp⟩ := x
    obtain ⟨hi, hf⟩ := h ip fp rfl
    have h0 := componentRat_nonneg (some (ip, fp))
    simp only [floatList, componentList, List.map_cons, List.map_nil, List.mem_singleton, forall_eq, List.length_cons,
      List.length_nil, unitSum, exactSum, List.sum_cons, List.sum_nil, add_zero, componentFloat_eq hi hf]
    refine ⟨⟨hu, fl64_nonneg h0⟩, by norm_num, le_refl _, ?_⟩
    rw [← mul_sub, abs_mul, abs_of_nonneg hu']
    have := mul_le_mul_of_nonneg_left (fl64_error' h0) hu'
    refine this.trans (le_of_eq ?_)
    ring

theorem exactSum_append (a b : List (Int × ℚ)) : exactSum (a ++ b) = exactSum a + exactSum b := by
  simp [exactSum]

theorem unitSum_append (a b : List (Int × ℚ)) : unitSum (a ++ b) = unitSum a + unitSum b := by
  simp [unitSum]

/-- the number of microseconds of a duration before the check of the range -/
theorem duration_us (env : Env) {text : List Char} {p : Duration} (h : IsDuration text p) :
    timedeltaLiteral env text =
      let us := timedeltaOf (p.components.map (fun c => (c.1, componentFloat c.2.1 c.2.2)))
      if timedeltaInRange us then .ok (.timedelta us) else .error (.py .overflowError) := by
  rw [timedeltaLiteral_eq]
  unfold parseTimedelta
  rw [timedeltaComponents_complete h]
  simp only
  split <;> rfl

theorem duration_error {text : List Char} {p : Duration} (h : IsDuration text p) :
    |(timedeltaOf (p.components.map (fun c => (c.1, componentFloat c.2.1 c.2.2))) : ℚ) - p.sum| ≤
      1 / 2 + p.sum / 2 ^ 53 + 1 / 2 ^ 12 := by
  have hd := duration_digits h
  have hl : p.components.map (fun c => (c.1, componentFloat c.2.1 c.2.2)) =
      floatList (7 * dayUs) p.weeks ++ floatList dayUs p.days ++ floatList 3600000000 p.hours ++
        floatList 60000000 p.minutes ++ floatList 1000000 p.seconds := by
    simp [Duration.components, floatList]
  obtain ⟨a1, a2, a3, a4⟩ := floatList_spec (7 * dayUs) (by decide) p.weeks (hd _ (by simp))
  obtain ⟨b1, b2, b3, b4⟩ := floatList_spec dayUs (by decide) p.days (hd _ (by simp))
  obtain ⟨c1, c2, c3, c4⟩ := floatList_spec 3600000000 (by decide) p.hours (hd _ (by simp))
  obtain ⟨d1, d2, d3, d4⟩ := floatList_spec 60000000 (by decide) p.minutes (hd _ (by simp))
  obtain ⟨e1, e2, e3, e4⟩ := floatList_spec 1000000 (by decide) p.seconds (hd _ (by simp))
  rw [hl]
  have key := timedeltaOf_error (floatList (7 * dayUs) p.weeks ++ floatList dayUs p.days ++
    floatList 3600000000 p.hours ++ floatList 60000000 p.minutes ++ floatList 1000000 p.seconds) (by
      intro c hc
      simp only [List.mem_append] at hc
      rcases hc with (((hc | hc) | hc) | hc) | hc
      · exact a1 c hc
      · exact b1 c hc
      · exact c1 c hc
      · exact d1 c hc
      · exact e1 c hc) (by simp only [List.length_append]; omega)
  simp only [exactSum_append, unitSum_append] at key
  have hday : ((dayUs : Int) : ℚ) = 86400000000 := by norm_num [dayUs]
  push_cast at a3 a4 b3 b4 c3 c4 d3 d4 e3 e4
  rw [hday] at a3 a4 b3 b4
  generalize exactSum (floatList (7 * dayUs) p.weeks) = A at *
  generalize exactSum (floatList dayUs p.days) = B at *
  generalize exactSum (floatList 3600000000 p.hours) = C at *
  generalize exactSum (floatList 60000000 p.minutes) = D at *
  generalize exactSum (floatList 1000000 p.seconds) = E at *
  generalize unitSum (floatList (7 * dayUs) p.weeks) = A' at *
  generalize unitSum (floatList dayUs p.days) = B' at *
  generalize unitSum (floatList 3600000000 p.hours) = C' at *
  generalize unitSum (floatList 60000000 p.minutes) = D' at *
  generalize unitSum (floatList 1000000 p.seconds) = E' at *
  unfold Duration.sum
  rw [abs_le] at a4 b4 c4 d4 e4 key ⊢
  norm_num at a4 b4 c4 d4 e4 key ⊢
  constructor <;> linarith [a4.1, a4.2, b4.1, b4.2, c4.1, c4.2, d4.1, d4.2, e4.1, e4.2, key.1, key.2]

theorem duration_sum_nonneg (p : Duration) : 0 ≤ p.sum := by
  have h1 := componentRat_nonneg p.weeks
  have h2 := componentRat_nonneg p.days
  have h3 := componentRat_nonneg p.hours
  have h4 := componentRat_nonneg p.minutes
  have h5 := componentRat_nonneg p.seconds
  unfold Duration.sum
  positivity

/-- **C39**: a duration denotes the sum of its components, up to a rounding error of less than
`0.501 + sum / 2 ** 53` microseconds; an OverflowError is raised if the rounded number is out of the range of a
timedelta. -/
theorem duration_close (env : Env) (text : List Char) (p : Duration) (h : IsDuration text p) :
    ∃ us : Int, |(us : ℚ) - p.sum| ≤ 501 / 1000 + p.sum / 2 ^ 53 ∧
      timedeltaLiteral env text =
        if timedeltaInRange us then .ok (.timedelta us) else .error (.py .overflowError) := by
  refine ⟨_, ?_, duration_us env h⟩
  refine (duration_error h).trans ?_
  have : (1 : ℚ) / 2 + 1 / 2 ^ 12 ≤ 501 / 1000 := by norm_num
  linarith

/-- **C39**: a duration whose components add up to a whole number of microseconds, and to no more than 50000 days,
denotes exactly that sum. -/
theorem duration_exact (env : Env) (text : List Char) (p : Duration) (h : IsDuration text p) (n : Int)
    (hn : p.sum = n) (hle : n ≤ 50000 * 86400 * 1000000) :
    timedeltaLiteral env text = .ok (.timedelta n) := by
  have he := duration_error h
  rw [duration_us env h]
  have h0 := duration_sum_nonneg p
  rw [hn] at he h0
  generalize timedeltaOf (p.components.map (fun c => (c.1, componentFloat c.2.1 c.2.2))) = us at he
  have hnq : (n : ℚ) ≤ 50000 * 86400 * 1000000 := by exact_mod_cast hle
  have hlt : |(us : ℚ) - n| < 1 := by
    refine he.trans_lt ?_
    norm_num at hnq ⊢
    linarith
  have : us = n := by
    have h1 : |us - n| < 1 := by exact_mod_cast hlt
    have := Int.abs_lt_one_iff.1 h1
    omega
  subst this
  have hr : timedeltaInRange us = true := by
    have h0' : 0 ≤ us := by exact_mod_cast h0
    have hday : dayUs = 86400000000 := by decide
    simp only [timedeltaInRange, hday, Bool.and_eq_true, decide_eq_true_eq]
    omega
  simp [hr]

/-- without fractions the exact sum is a whole number -/
theorem whole_sum {p : Duration} (hw : p.Whole) : p.sum = (p.total : ℚ) := by
  have key : ∀ o ∈ [p.weeks, p.days, p.hours, p.minutes, p.seconds], componentRat o = (componentNum o : ℚ) := by
    intro o ho
    cases o with
    | none => simp [componentRat, componentNum]
    | some x =>
      have := hw _ ho x rfl
      obtain ⟨ip, fp⟩ := x
      simp only at this
      subst this
      simp [componentRat, componentNum, digitsNum]
  unfold Duration.sum Duration.total
  rw [key p.seconds (by simp), key p.minutes (by simp), key p.hours (by simp), key p.days (by simp),
    key p.weeks (by simp)]
  push_cast
  ring

theorem componentNum_nonneg (o : Option (List Char × List Char)) : 0 ≤ componentNum o := by
  cases o with
  | none => exact le_refl _
  | some x => simp only [componentNum]; positivity

/-- **C39**: a duration without fractions denotes the sum of its components (an OverflowError is raised if that is
out of the range of a timedelta). -/
theorem duration_sum (env : Env) (text : List Char) (p : Duration) (h : IsDuration text p) (hw : p.Whole) :
    timedeltaLiteral env text =
      if timedeltaInRange p.total then .ok (.timedelta p.total) else .error (.py .overflowError) := by
  have hd := duration_digits h
  have hnn := fun o => componentNum_nonneg o
  by_cases hbig : ∃ o ∈ [p.weeks, p.days, p.hours, p.minutes, p.seconds], (2 : Int) ^ 53 < componentNum o
  · -- far out of range
    have ht : (1000000 : Int) * 2 ^ 53 ≤ p.total := by
      obtain ⟨o, ho, hb⟩ := hbig
      have h1 := hnn p.weeks
      have h2 := hnn p.days
      have h3 := hnn p.hours
      have h4 := hnn p.minutes
      have h5 := hnn p.seconds
      simp only [List.mem_cons, List.not_mem_nil, or_false] at ho
      unfold Duration.total
      rcases ho with rfl | rfl | rfl | rfl | rfl <;> omega
    have he := duration_error h
    rw [duration_us env h]
    rw [whole_sum hw] at he
    generalize timedeltaOf (p.components.map (fun c => (c.1, componentFloat c.2.1 c.2.2))) = us at he
    have htq : (1000000 : ℚ) * 2 ^ 53 ≤ (p.total : ℚ) := by exact_mod_cast ht
    have hus : (1000000 : ℚ) * 2 ^ 52 ≤ us := by
      have := (abs_le.1 he).1
      norm_num at htq this ⊢
      linarith
    have hus' : (1000000 : Int) * 2 ^ 52 ≤ us := by exact_mod_cast hus
    have hday : dayUs = 86400000000 := by decide
    have r1 : timedeltaInRange us = false := by
      simp only [timedeltaInRange, hday, Bool.and_eq_false_iff, decide_eq_false_iff_not]
      omega
    have r2 : timedeltaInRange p.total = false := by
      simp only [timedeltaInRange, hday, Bool.and_eq_false_iff, decide_eq_false_iff_not]
      omega
    simp [r1, r2]
  · -- every component is a float
    have hsmall : ∀ o ∈ [p.weeks, p.days, p.hours, p.minutes, p.seconds], componentNum o ≤ (2 : Int) ^ 53 := by
      intro o ho
      by_contra hc
      exact hbig ⟨o, ho, by omega⟩
    have one : ∀ (u : Int), ∀ o ∈ [p.weeks, p.days, p.hours, p.minutes, p.seconds],
        ∃ cs : List (Int × Int), floatList u o = cs.map (fun c => (c.1, (c.2 : ℚ))) ∧
          (cs.map (fun c => c.1 * c.2)).sum = u * componentNum o := by
      intro u o ho
      cases o with
      | none => exact ⟨[], by simp [floatList, componentList], by simp [componentNum]⟩
      | some x =>
        have hx := hw _ ho x rfl
        obtain ⟨ip, fp⟩ := x
        simp only at hx
        subst hx
        obtain ⟨hi, hf⟩ := hd _ ho ip [] rfl
        refine ⟨[(u, componentNum (some (ip, [])))], ?_, by simp⟩
        have hr : componentRat (some (ip, [])) = ((componentNum (some (ip, [])) : Int) : ℚ) := by
          simp [componentRat, componentNum, digitsNum]
        simp only [floatList, componentList, List.map_cons, List.map_nil, componentFloat_eq hi hf, hr]
        rw [fl64_int (hnn _) (hsmall _ ho)]
    obtain ⟨w, w1, w2⟩ := one (7 * dayUs) p.weeks (by simp)
    obtain ⟨d, d1, d2⟩ := one dayUs p.days (by simp)
    obtain ⟨hh, h1, h2⟩ := one 3600000000 p.hours (by simp)
    obtain ⟨m, m1, m2⟩ := one 60000000 p.minutes (by simp)
    obtain ⟨s, s1, s2⟩ := one 1000000 p.seconds (by simp)
    have hl : p.components.map (fun c => (c.1, componentFloat c.2.1 c.2.2)) =
        (w ++ d ++ hh ++ m ++ s).map (fun c => (c.1, (c.2 : ℚ))) := by
      simp only [Duration.components, List.map_append]
      rw [← w1, ← d1, ← h1, ← m1, ← s1]
      rfl
    have hus : timedeltaOf (p.components.map (fun c => (c.1, componentFloat c.2.1 c.2.2))) = p.total := by
      rw [hl, timedeltaOf_int]
      simp only [List.map_append, List.sum_append, w2, d2, h2, m2, s2, Duration.total, dayUs]
      ring
    rw [duration_us env h, hus]

/-- Witness for C39: fractions, with a comma or a point; a half of a microsecond is rounded; and beyond 50000 days
the result may not be exact: the rule `t"PT80000000000000.999999S"` evaluates to a timedelta that is
1 microsecond longer. -/
theorem fraction_witness :
    timedeltaLiteral sampleEnv "P1,5WT0.3H1.7S".toList = .ok (.timedelta 908281700000) ∧
    timedeltaLiteral sampleEnv "PT0.0000005S".toList = .ok (.timedelta 0) ∧
    timedeltaLiteral sampleEnv "PT80000000000000.999999S".toList = .ok (.timedelta 80000000000001000000) ∧
    (∃ p, IsDuration "P0.5D".toList p ∧ ¬ p.Whole ∧ p.sum = ((43200000000 : Int) : ℚ)) := by
  refine ⟨by decide +kernel, by decide +kernel, by decide +kernel, ?_⟩
  refine ⟨⟨none, some (['0'], ['5']), none, none, none⟩, ⟨"0.5D".toList, by decide, ?_, .inl (by decide)⟩, ?_, ?_⟩
  · exact IsDurationBody.dates [] "0.5D".toList none _ .absent
      (.present _ _ _ (.fraction ['0'] ['5'] '.' (by simp) ((isDigits_iff _).2 (by decide)) (by simp)
        ((isDigits_iff _).2 (by decide)) (.inl rfl)))
  · intro h
    have := h (some (['0'], ['5'])) (by simp) _ rfl
    simp at this
  · have h1 : digitsNum 10 ['0'] = 0 := by decide +kernel
    have h2 : digitsNum 10 ['5'] = 5 := by decide +kernel
    simp only [Duration.sum, componentRat, h1, h2]
    norm_num

/-- Witness for C39: `P1WT2M3S` is a week, two minutes and three seconds; `PT` is accepted and is zero; `P`, `1D` and
`P1D2W` are rejected. -/
theorem duration_witness :
    timedeltaLiteral sampleEnv "P1WT2M3S".toList = .ok (.timedelta ((7 * 86400 + 2 * 60 + 3) * 1000000)) ∧
    timedeltaLiteral sampleEnv "PT".toList = .ok (.timedelta 0) ∧
    timedeltaLiteral sampleEnv "P".toList = .error (.eng .timedeltaSyntax) ∧
    timedeltaLiteral sampleEnv "1D".toList = .error (.eng .timedeltaSyntax) ∧
    timedeltaLiteral sampleEnv "P1D2W".toList = .error (.eng .timedeltaSyntax) ∧
    (∃ p, IsDuration "PT5S".toList p ∧ p.Whole ∧ p.total = 5000000) := by
  refine ⟨by decide +kernel, by decide +kernel, by decide +kernel, by decide +kernel, by decide +kernel, ?_⟩
  refine ⟨⟨none, none, none, none, some (['5'], [])⟩, ⟨"T5S".toList, by decide, ?_, .inl (by decide)⟩, ?_, by decide +kernel⟩
  · have := IsDurationBody.times [] [] [] [] ("5".toList ++ ['S']) none none none none _ .absent .absent .absent .absent
      (.present _ _ _ (.whole ['5'] (by simp) ((isDigits_iff _).2 (by decide))))
    exact this
  · intro c hc x hx
    simp only [List.mem_cons, List.not_mem_nil, or_false] at hc
    rcases hc with rfl | rfl | rfl | rfl | rfl <;> first | (simp at hx; done) | (simp at hx; subst hx; rfl)

end RE
