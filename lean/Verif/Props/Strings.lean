import Verif.Model.StrLit
import Verif.Props.LiteralText

/-!
# String and bytes literals (C51, C52)
-/

set_option linter.unusedSimpArgs false

namespace RE

/-! ## Specification -/

/-- The escapes of one letter. -/
def letterEscapes : List (Char × Char) :=
  [('\\', '\\'), ('\'', '\''), ('"', '"'), ('a', Char.ofNat 7), ('b', Char.ofNat 8), ('f', Char.ofNat 12),
   ('n', '\n'), ('r', '\r'), ('t', '\t'), ('v', Char.ofNat 11)]

/-- printable ASCII -/
def isPlainAscii (c : Char) : Bool := decide (32 ≤ c.toNat) && decide (c.toNat < 127)

/-- The letters after which more is expected. -/
def hexEscapes : List (Char × Nat) := [('x', 2), ('u', 4), ('U', 8)]

/-- an octal digit -/
def isOctal (c : Char) : Bool := decide (c ∈ ['0', '1', '2', '3', '4', '5', '6', '7'])

/-- `Unit i t v`: `i`, when followed by `t`, is one unit of a string literal, and stands for `v`. -/
inductive StrUnit : List Char → List Char → List Char → Prop
  /-- any character but the backslash stands for itself -/
  | char (c : Char) (t : List Char) : c ≠ '\\' → StrUnit [c] t [c]
  /-- `\n`, `\\`, `\"`, … -/
  | letter (c v : Char) (t : List Char) : (c, v) ∈ letterEscapes → StrUnit ['\\', c] t [v]
  /-- `\x41`, `\u0041`, `\U00000041` -/
  | hex (c : Char) (w : Nat) (ds : List Char) (t : List Char) : (c, w) ∈ hexEscapes → ds.length = w →
      IsDigits 16 ds → (digitsNum 16 ds).isValidChar → StrUnit ('\\' :: c :: ds) t [Char.ofNat (digitsNum 16 ds)]
  /-- `\7`, `\101`: at most three digits, as many as there are -/
  | octal (ds t : List Char) : ds ≠ [] → ds.length ≤ 3 → ds.all isOctal = true →
      (ds.length = 3 ∨ headAll (fun c => !isOctal c) t = true) → StrUnit ('\\' :: ds) t [Char.ofNat (digitsNum 8 ds)]
  /-- a backslash before any other printable character stands for itself -/
  | other (c : Char) (t : List Char) : isPlainAscii c = true → c ∉ letterEscapes.map (·.1) →
      c ∉ hexEscapes.map (·.1) → c ≠ 'N' → isOctal c = false → StrUnit ['\\', c] t ['\\', c]

/-- `t` between quotes spells `v`. -/
inductive Spells : List Char → List Char → Prop
  | nil : Spells [] []
  | cons (i t v s : List Char) : StrUnit i t v → Spells t s → Spells (i ++ t) (v ++ s)

/-- The escape at the front of `t` lacks digits, or denotes no character. -/
def BadEscape (t : List Char) : Prop :=
  ∃ c w r, (c, w) ∈ hexEscapes ∧ t = '\\' :: c :: r ∧
    ¬ (∃ ds rest, r = ds ++ rest ∧ ds.length = w ∧ IsDigits 16 ds ∧ digitsNum 16 ds ≤ 0x10ffff)

/-- There is a malformed escape in `t`. -/
inductive Malformed : List Char → Prop
  | here (t : List Char) : BadEscape t → Malformed t
  | later (i t v : List Char) : StrUnit i t v → Malformed t → Malformed (i ++ t)

/-! ## The first two steps: characters that are not printable become escapes -/

/-- what the encoding and the replacement make of a character -/
def spelled (c : Char) : List Char := if c == '\\' then ['\\'] else ueChar c

theorem hexChars_noslash : ∀ w n, ∀ c ∈ hexChars w n, c ≠ '\\'
  | 0, _, c, h => by simp [hexChars] at h
  | w + 1, n, c, h => by
    simp only [hexChars, List.mem_append, List.mem_singleton] at h
    rcases h with h | rfl
    · exact hexChars_noslash w _ c h
    · have key : ∀ d < 16, hexDigitChar d ≠ '\\' := by decide
      exact key _ (Nat.mod_lt _ (by omega))

theorem unDouble_noslash : ∀ (a r : List Char), (∀ c ∈ a, c ≠ '\\') → unDouble (a ++ r) = a ++ unDouble r
  | [], _, _ => rfl
  | c :: a, r, h => by
    have hc := h c (by simp)
    have ih := unDouble_noslash a r (fun x hx => h x (by simp [hx]))
    rw [List.cons_append, unDouble]
    · rw [ih]; rfl
    · intro r' h'
      exact absurd h' hc

theorem unDouble_slash (a r : List Char) (c : Char) (h : ∀ x ∈ c :: a, x ≠ '\\') :
    unDouble ('\\' :: c :: (a ++ r)) = '\\' :: c :: (a ++ unDouble r) := by
  have hc := h c (by simp)
  rw [unDouble]
  · have := unDouble_noslash (c :: a) r h
    simp only [List.cons_append] at this
    rw [this]
  · intro r' _ he
    exact absurd (List.cons.inj he).1 hc

/-- what a character other than the backslash is encoded as -/
theorem ueChar_cases (c : Char) (h : c ≠ '\\') :
    ueChar c = [c] ∧ isPlainAscii c = true ∨
    ueChar c = ['\\', 't'] ∧ c = '\t' ∨ ueChar c = ['\\', 'n'] ∧ c = '\n' ∨ ueChar c = ['\\', 'r'] ∧ c = '\r' ∨
    isPlainAscii c = false ∧
      ∃ l w, (l, w) ∈ hexEscapes ∧ c.toNat < 16 ^ w ∧ ueChar c = '\\' :: l :: hexChars w c.toNat := by
  unfold ueChar
  simp only [beq_iff_eq, h, if_false]
  by_cases h1 : c = '\t'
  · simp [h1]
  by_cases h2 : c = '\n'
  · simp [h2]
  by_cases h3 : c = '\r'
  · simp [h3]
  simp only [h1, h2, h3, if_false]
  by_cases h4 : isPlainAscii c = true
  · left
    unfold isPlainAscii at h4
    simp only [isPlainAscii, h4, if_true, and_self]
  · right; right; right; right
    unfold isPlainAscii at h4
    rw [if_neg h4]
    refine ⟨by simpa [isPlainAscii] using h4, ?_⟩
    by_cases h5 : c.toNat < 0x100
    · rw [if_pos h5]; exact ⟨'x', 2, by simp [hexEscapes], by simpa using h5, rfl⟩
    · rw [if_neg h5]
      by_cases h6 : c.toNat < 0x10000
      · rw [if_pos h6]; exact ⟨'u', 4, by simp [hexEscapes], by simpa using h6, rfl⟩
      · rw [if_neg h6]
        refine ⟨'U', 8, by simp [hexEscapes], ?_, rfl⟩
        have := c.valid
        have h7 : c.toNat < 0x110000 := by
          have hv := c.valid
          rcases hv with hv | ⟨_, hv⟩
          · show c.val.toNat < _; omega
          · exact hv
        omega

theorem hexEscapes_noslash {l : Char} {w : Nat} (h : (l, w) ∈ hexEscapes) : l ≠ '\\' := by
  simp only [hexEscapes, List.mem_cons, Prod.mk.injEq, List.not_mem_nil, or_false] at h
  rcases h with ⟨rfl, -⟩ | ⟨rfl, -⟩ | ⟨rfl, -⟩ <;> decide

theorem unDouble_char (c : Char) (r : List Char) : unDouble (ueChar c ++ r) = spelled c ++ unDouble r := by
  unfold spelled
  by_cases h : c = '\\'
  · subst h; rfl
  · have hb : (c == '\\') = false := by simpa using h
    rw [hb]
    simp only [Bool.false_eq_true, if_false]
    rcases ueChar_cases c h with ⟨h1, -⟩ | ⟨h1, -⟩ | ⟨h1, -⟩ | ⟨h1, -⟩ | ⟨-, l, w, hl, -, h1⟩
    · rw [h1]; exact unDouble_noslash [c] r (by simpa using h)
    · rw [h1]; exact unDouble_slash [] r 't' (by decide)
    · rw [h1]; exact unDouble_slash [] r 'n' (by decide)
    · rw [h1]; exact unDouble_slash [] r 'r' (by decide)
    · rw [h1]
      refine unDouble_slash _ r l ?_
      intro x hx
      rcases List.mem_cons.1 hx with rfl | hx
      · exact hexEscapes_noslash hl
      · exact hexChars_noslash _ _ x hx

theorem unDouble_encode : ∀ t : List Char, unDouble (ueEncode t) = t.flatMap spelled
  | [] => rfl
  | c :: t => by
    have ih := unDouble_encode t
    unfold ueEncode at ih ⊢
    rw [List.flatMap_cons, unDouble_char, ih]
    rfl

/-! ## The third step -/

theorem takeOctal_rest : ∀ n r, (takeOctal n r).2.length ≤ r.length
  | 0, _ => by simp [takeOctal]
  | n + 1, [] => by simp [takeOctal]
  | n + 1, c :: r => by
    have := takeOctal_rest n r
    simp only [takeOctal]
    split <;> simp <;> omega

theorem ueEscape_shrinks {u : UniData} {r v rest : List Char} (h : ueEscape u r = some (v, rest)) :
    rest.length < r.length := by
  unfold ueEscape at h
  have hhex : ∀ w (r : List Char), hexEscape u w r = some (v, rest) → rest.length ≤ r.length := by
    intro w r h
    unfold hexEscape at h
    split at h
    · split at h
      · split at h
        · simp only [Option.some.injEq, Prod.mk.injEq] at h; rw [← h.2]; simp
        · cases h
      · cases h
    · cases h
  cases r with
  | nil => cases h
  | cons c r =>
    simp only [List.length_cons] at h ⊢
    split at h
    · cases h; omega
    · split at h
      · cases h; omega
      · split at h
        · simp only [Option.some.injEq, Prod.mk.injEq] at h
          have := takeOctal_rest 2 r
          rw [← h.2]; omega
        · split at h
          · have := hhex 2 r h; omega
          · split at h
            · have := hhex 4 r h; omega
            · split at h
              · have := hhex 8 r h; omega
              · split at h
                · unfold nameEscape at h
                  split at h
                  · rename_i r'
                    split at h
                    · rename_i heq
                      rcases hn : u.name (List.takeWhile (fun x => x != '}') r') with _ | d
                      · rw [hn] at h; cases h
                      · rw [hn] at h
                        cases h
                        have h2 := (List.dropWhile_sublist (fun x => x != '}') (l := r')).length_le
                        rw [heq] at h2
                        simp only [List.length_cons] at h2 ⊢
                        omega
                    · cases h
                  · cases h
                · cases h; omega

/-- enough steps -/
theorem ueDecode_fuel (u : UniData) : ∀ (n m : Nat) (t : List Char), t.length ≤ n → t.length ≤ m →
    ueDecode u n t = ueDecode u m t
  | 0, 0, _, _, _ => rfl
  | 0, m + 1, t, hn, _ => by
    have : t = [] := List.length_eq_zero_iff.1 (by omega)
    subst this; rfl
  | n + 1, 0, t, _, hm => by
    have : t = [] := List.length_eq_zero_iff.1 (by omega)
    subst this; rfl
  | n + 1, m + 1, [], _, _ => rfl
  | n + 1, m + 1, c :: r, hn, hm => by
    simp only [List.length_cons, Nat.add_le_add_iff_right] at hn hm
    simp only [ueDecode]
    split
    · cases he : ueEscape u r with
      | none => rfl
      | some p =>
        obtain ⟨v, rest⟩ := p
        have := ueEscape_shrinks he
        simp only
        rw [ueDecode_fuel u n m rest (by omega) (by omega)]
    · rw [ueDecode_fuel u n m r hn hm]

/-- decoding with enough steps -/
def ueAll (u : UniData) (t : List Char) : Option (List Char) := ueDecode u t.length t

theorem ueAll_nil (u : UniData) : ueAll u [] = some [] := rfl

theorem ueAll_char (u : UniData) (c : Char) (r : List Char) (h : c ≠ '\\') :
    ueAll u (c :: r) = (ueAll u r).map (c :: ·) := by
  have : (c == '\\') = false := by simpa using h
  simp only [ueAll, List.length_cons, ueDecode, this, Bool.false_eq_true, if_false]

theorem ueAll_escape (u : UniData) (r v rest : List Char) (h : ueEscape u r = some (v, rest)) :
    ueAll u ('\\' :: r) = (ueAll u rest).map (v ++ ·) := by
  have := ueEscape_shrinks h
  simp only [ueAll, List.length_cons, ueDecode, beq_self_eq_true, if_true, h]
  rw [ueDecode_fuel u _ _ rest (by omega) (Nat.le_refl _)]

theorem ueAll_bad (u : UniData) (r : List Char) (h : ueEscape u r = none) : ueAll u ('\\' :: r) = none := by
  simp only [ueAll, List.length_cons, ueDecode, beq_self_eq_true, if_true, h]

theorem stringLit_eq (u : UniData) (t : List Char) :
    stringLit u t = (ueAll u (t.flatMap spelled)).map String.ofList := by
  simp only [stringLit, unDouble_encode, ueAll]

/-! ### Digits -/

theorem plain_spelled {c : Char} (h : isPlainAscii c = true) : spelled c = [c] := by
  unfold spelled
  by_cases hc : c = '\\'
  · subst hc; rfl
  · have : (c == '\\') = false := by simpa using hc
    rw [this]
    simp only [Bool.false_eq_true, if_false]
    rcases ueChar_cases c hc with ⟨h1, -⟩ | ⟨-, rfl⟩ | ⟨-, rfl⟩ | ⟨-, rfl⟩ | ⟨h1, -⟩
    · exact h1
    · revert h; decide
    · revert h; decide
    · revert h; decide
    · rw [h] at h1; cases h1

theorem spelled_head {c : Char} (h : isPlainAscii c = false) : ∃ r, spelled c = '\\' :: r := by
  unfold spelled
  by_cases hc : c = '\\'
  · subst hc; exact absurd h (by decide)
  · have : (c == '\\') = false := by simpa using hc
    rw [this]
    simp only [Bool.false_eq_true, if_false]
    rcases ueChar_cases c hc with ⟨-, h1⟩ | ⟨h1, -⟩ | ⟨h1, -⟩ | ⟨h1, -⟩ | ⟨-, l, w, -, -, h1⟩
    · rw [h] at h1; cases h1
    · exact ⟨_, h1⟩
    · exact ⟨_, h1⟩
    · exact ⟨_, h1⟩
    · exact ⟨_, h1⟩

theorem digits_plain {base : Nat} (hb : base ≤ 16) {ds : List Char} (h : IsDigits base ds) :
    ∀ c ∈ ds, isPlainAscii c = true := by
  intro c hc
  obtain ⟨d, hd, hcd⟩ := h c hc
  have key : ∀ d < 16, isPlainAscii lowerDigits[d]! = true ∧ isPlainAscii upperDigits[d]! = true := by decide
  rcases hcd with rfl | rfl
  · exact (key d (by omega)).1
  · exact (key d (by omega)).2

theorem spelled_plain : ∀ {ds : List Char}, (∀ c ∈ ds, isPlainAscii c = true) → ds.flatMap spelled = ds
  | [], _ => rfl
  | c :: ds, h => by
    rw [List.flatMap_cons, plain_spelled (h c (by simp)), spelled_plain (fun x hx => h x (by simp [hx]))]
    rfl

theorem hexChars_length : ∀ w n, (hexChars w n).length = w
  | 0, _ => rfl
  | w + 1, n => by simp [hexChars, hexChars_length w]

theorem hexChars_digits : ∀ w n, IsDigits 16 (hexChars w n)
  | 0, _ => by intro c h; simp [hexChars] at h
  | w + 1, n => by
    intro c h
    simp only [hexChars, List.mem_append, List.mem_singleton] at h
    rcases h with h | rfl
    · exact hexChars_digits w _ c h
    · refine ⟨n % 16, Nat.mod_lt _ (by omega), .inl ?_⟩
      have key : ∀ d < 16, hexDigitChar d = lowerDigits[d]! := by decide
      exact key _ (Nat.mod_lt _ (by omega))

theorem digitsNum_snoc (base : Nat) (ds : List Char) (c : Char) :
    digitsNum base (ds ++ [c]) = digitsNum base ds * base + digitNum c := by
  unfold digitsNum
  simp only [List.reverse_append, List.reverse_cons, List.reverse_nil, List.nil_append, List.map_cons,
    List.cons_append, List.map_append, Nat.ofDigits_cons]
  ring

theorem hexChars_num : ∀ w n, n < 16 ^ w → digitsNum 16 (hexChars w n) = n
  | 0, n, h => by
    have : n = 0 := by simpa using h
    subst this; rfl
  | w + 1, n, h => by
    rw [hexChars, digitsNum_snoc, hexChars_num w (n / 16) (by rw [Nat.div_lt_iff_lt_mul (by omega)]; rw [pow_succ] at h; exact h)]
    have key : ∀ d < 16, digitNum (hexDigitChar d) = d := by decide
    rw [key _ (Nat.mod_lt _ (by omega))]
    omega

/-! ### Escapes -/

theorem hexEscape_digits (u : UniData) (w : Nat) (ds rest : List Char) (hl : ds.length = w) (hd : IsDigits 16 ds)
    (hv : digitsNum 16 ds ≤ 0x10ffff) : hexEscape u w (ds ++ rest) = some ([u.char (digitsNum 16 ds)], rest) := by
  have h1 : (ds ++ rest).take w = ds := by rw [← hl, List.take_left]
  have h2 : (ds ++ rest).drop w = rest := by rw [← hl, List.drop_left]
  have h3 : readNat 16 0 ds = some (digitsNum 16 ds) := by
    rw [readNat_digits 16 (by omega) ds hd]; simp
  simp only [hexEscape, h1, h2, h3, hl, hv, if_true]

theorem ueEscape_hex (u : UniData) {l : Char} {w : Nat} (h : (l, w) ∈ hexEscapes) (r : List Char) :
    ueEscape u (l :: r) = hexEscape u w r := by
  simp only [hexEscapes, List.mem_cons, Prod.mk.injEq, List.not_mem_nil, or_false] at h
  rcases h with ⟨rfl, rfl⟩ | ⟨rfl, rfl⟩ | ⟨rfl, rfl⟩ <;> rfl

theorem validChar_le {n : Nat} (h : n.isValidChar) : n ≤ 0x10ffff := by
  rcases h with h | ⟨_, h⟩ <;> omega

theorem char_valid (c : Char) : c.toNat.isValidChar := c.valid

theorem uniChar_valid (u : UniData) {n : Nat} (h : n.isValidChar) : u.char n = Char.ofNat n := by
  simp only [UniData.char, h, if_true]

/-- A character that is not a backslash denotes itself. -/
theorem ueAll_spelled (u : UniData) (c : Char) (h : c ≠ '\\') (r : List Char) :
    ueAll u (spelled c ++ r) = (ueAll u r).map (c :: ·) := by
  have hb : (c == '\\') = false := by simpa using h
  unfold spelled
  rw [hb]
  simp only [Bool.false_eq_true, if_false]
  rcases ueChar_cases c h with ⟨h1, -⟩ | ⟨h1, rfl⟩ | ⟨h1, rfl⟩ | ⟨h1, rfl⟩ | ⟨-, l, w, hl, hlt, h1⟩
  · rw [h1]; exact ueAll_char u c r h
  · rw [h1]; exact ueAll_escape u _ ['\t'] r rfl
  · rw [h1]; exact ueAll_escape u _ ['\n'] r rfl
  · rw [h1]; exact ueAll_escape u _ ['\r'] r rfl
  · rw [h1]
    have hn := hexChars_num w c.toNat hlt
    have := hexEscape_digits u w (hexChars w c.toNat) r (hexChars_length w _) (hexChars_digits w _)
      (by rw [hn]; exact validChar_le (char_valid c))
    rw [hn, uniChar_valid u (char_valid c), Char.ofNat_toNat] at this
    have h2 : ueEscape u (l :: (hexChars w c.toNat ++ r)) = some ([c], r) := by
      rw [ueEscape_hex u hl, this]
    exact ueAll_escape u _ [c] r h2

theorem octal_iff (c : Char) : isDigitOf 8 c = true ↔ isOctal c = true := by
  constructor
  · intro h
    unfold isDigitOf digitVal at h
    simp only [isOctal, decide_eq_true_eq]
    have key : ∀ n, 48 ≤ n → n ≤ 55 → Char.ofNat n ∈ ['0', '1', '2', '3', '4', '5', '6', '7'] := by
      intro n h1 h2; interval_cases n <;> decide
    split at h
    · rename_i d hd
      simp only [Bool.and_eq_true, decide_eq_true_eq] at hd h
      split at hd
      · rename_i h1
        cases hd
        have := key c.toNat h1.1 (by omega)
        rwa [Char.ofNat_toNat] at this
      · split at hd
        · cases hd; omega
        · split at hd
          · cases hd; omega
          · cases hd
    · cases h
  · intro h
    simp only [isOctal, decide_eq_true_eq, List.mem_cons, List.not_mem_nil, or_false] at h
    rcases h with rfl | rfl | rfl | rfl | rfl | rfl | rfl | rfl <;> rfl

theorem octal_digit {c : Char} (h : isOctal c = true) : ∃ d, d < 8 ∧ (c = lowerDigits[d]! ∨ c = upperDigits[d]!) := by
  simp only [isOctal, decide_eq_true_eq, List.mem_cons, List.not_mem_nil, or_false] at h
  rcases h with rfl | rfl | rfl | rfl | rfl | rfl | rfl | rfl
  · exact ⟨0, by omega, .inl rfl⟩
  · exact ⟨1, by omega, .inl rfl⟩
  · exact ⟨2, by omega, .inl rfl⟩
  · exact ⟨3, by omega, .inl rfl⟩
  · exact ⟨4, by omega, .inl rfl⟩
  · exact ⟨5, by omega, .inl rfl⟩
  · exact ⟨6, by omega, .inl rfl⟩
  · exact ⟨7, by omega, .inl rfl⟩

theorem octal_digits {ds : List Char} (h : ds.all isOctal = true) : IsDigits 8 ds := by
  intro c hc
  exact octal_digit (List.all_eq_true.1 h c hc)

theorem takeOctal_digits : ∀ (n : Nat) (ds rest : List Char), ds.all isOctal = true → ds.length ≤ n →
    (ds.length = n ∨ headAll (fun c => !isOctal c) rest = true) → takeOctal n (ds ++ rest) = (ds, rest)
  | 0, [], _, _, _, _ => by simp [takeOctal]
  | 0, _ :: _, _, _, h, _ => by simp at h
  | n + 1, [], rest, _, _, h => by
    rcases h with h | h
    · simp at h
    · cases rest with
      | nil => rfl
      | cons c r =>
        have : isDigitOf 8 c = false := by
          by_contra hc
          rw [Bool.not_eq_false, octal_iff] at hc
          simp only [headAll, hc, Bool.not_true] at h
          cases h
        simp only [List.nil_append, takeOctal, this, Bool.false_eq_true, if_false]
  | n + 1, c :: ds, rest, hd, hl, h => by
    simp only [List.all_cons, Bool.and_eq_true] at hd
    have ih := takeOctal_digits n ds rest hd.2 (by simpa using hl) (by
      rcases h with h | h
      · left; simpa using h
      · exact .inr h)
    simp only [List.cons_append, takeOctal, (octal_iff c).2 hd.1, if_true, ih]

/-- the next character after the encoding is an octal digit only if it was one before -/
theorem spelled_octal {t : List Char} (h : headAll (fun c => !isOctal c) t = true) :
    headAll (fun c => !isOctal c) (t.flatMap spelled) = true := by
  cases t with
  | nil => rfl
  | cons c t =>
    rw [List.flatMap_cons]
    by_cases hp : isPlainAscii c = true
    · rw [plain_spelled hp]; exact h
    · obtain ⟨r, hr⟩ := spelled_head (by simpa using hp)
      rw [hr]; rfl

theorem letter_plain : ∀ p ∈ letterEscapes, isPlainAscii p.1 = true := by decide
theorem hexLetter_plain : ∀ p ∈ hexEscapes, isPlainAscii p.1 = true := by decide

theorem octal_plain {c : Char} (h : isOctal c = true) : isPlainAscii c = true := by
  simp only [isOctal, decide_eq_true_eq, List.mem_cons, List.not_mem_nil, or_false] at h
  rcases h with rfl | rfl | rfl | rfl | rfl | rfl | rfl | rfl <;> decide

theorem octal_bound {ds : List Char} (hd : ds.all isOctal = true) (hl : ds.length ≤ 3) :
    (digitsNum 8 ds).isValidChar := by
  have h1 : digitsNum 8 ds < 8 ^ ds.length := by
    unfold digitsNum
    have := Nat.ofDigits_lt_base_pow_length (b := 8) (by omega) (l := ds.reverse.map digitNum) (by
      intro x hx
      simp only [List.mem_map, List.mem_reverse] at hx
      obtain ⟨c, hc, rfl⟩ := hx
      obtain ⟨d, hd1, -, hd2, -⟩ := digit_cases (base := 8) (by omega) (octal_digit (List.all_eq_true.1 hd c hc))
      omega)
    simpa using this
  have h2 : 8 ^ ds.length ≤ 8 ^ 3 := Nat.pow_le_pow_right (by omega) hl
  left
  omega

/-- One unit of the literal gives what it stands for. -/
theorem ueAll_unit (u : UniData) {i t v : List Char} (h : StrUnit i t v) :
    ueAll u ((i ++ t).flatMap spelled) = (ueAll u (t.flatMap spelled)).map (v ++ ·) := by
  have hs : spelled '\\' = ['\\'] := rfl
  rw [List.flatMap_append]
  cases h with
  | char c _ hc =>
    simp only [List.flatMap_cons, List.flatMap_nil, List.append_nil]
    exact ueAll_spelled u c hc _
  | letter c d _ hc =>
    simp only [List.flatMap_cons, List.flatMap_nil, List.append_nil, hs, plain_spelled (letter_plain _ hc),
      List.cons_append, List.nil_append]
    refine ueAll_escape u _ [d] _ ?_
    simp only [letterEscapes, List.mem_cons, Prod.mk.injEq, List.not_mem_nil, or_false] at hc
    rcases hc with ⟨rfl, rfl⟩ | ⟨rfl, rfl⟩ | ⟨rfl, rfl⟩ | ⟨rfl, rfl⟩ | ⟨rfl, rfl⟩ | ⟨rfl, rfl⟩ | ⟨rfl, rfl⟩ |
      ⟨rfl, rfl⟩ | ⟨rfl, rfl⟩ | ⟨rfl, rfl⟩ <;> rfl
  | hex c w ds _ hc hl hd hv =>
    simp only [List.flatMap_cons, hs, plain_spelled (hexLetter_plain _ hc), List.cons_append, List.nil_append,
      spelled_plain (digits_plain (by omega) hd)]
    refine ueAll_escape u _ [_] _ ?_
    rw [ueEscape_hex u hc, hexEscape_digits u w ds _ hl hd (validChar_le hv), uniChar_valid u hv]
  | octal ds _ hne hl hd hnext =>
    simp only [List.flatMap_cons, hs, List.cons_append, List.nil_append,
      spelled_plain (digits_plain (by omega) (octal_digits hd))]
    refine ueAll_escape u _ [_] _ ?_
    obtain ⟨c, ds, rfl⟩ := List.exists_cons_of_ne_nil hne
    have hd' := hd
    simp only [List.all_cons, Bool.and_eq_true] at hd'
    have hnum : readNat 8 0 (c :: ds) = some (digitsNum 8 (c :: ds)) := by
      rw [readNat_digits 8 (by omega) _ (octal_digits hd)]; simp
    have htake := takeOctal_digits 2 ds (t.flatMap spelled) hd'.2 (by simpa using hl) (by
      rcases hnext with h | h
      · left; simpa using h
      · exact .inr (spelled_octal h))
    have h1 : (c == '\n') = false := by
      rw [beq_eq_false_iff_ne]; rintro rfl; exact absurd hd'.1 (by decide)
    have h2 : simpleEscape c = none := by
      have := hd'.1
      simp only [isOctal, decide_eq_true_eq, List.mem_cons, List.not_mem_nil, or_false] at this
      rcases this with rfl | rfl | rfl | rfl | rfl | rfl | rfl | rfl <;> rfl
    simp only [List.cons_append, ueEscape, h1, Bool.false_eq_true, if_false, h2, (octal_iff c).2 hd'.1, if_true, htake,
      hnum, Option.getD_some, uniChar_valid u (octal_bound hd hl)]
  | other c _ hp h1 h2 h3 h4 =>
    simp only [List.flatMap_cons, List.flatMap_nil, List.append_nil, hs, plain_spelled hp, List.cons_append,
      List.nil_append]
    refine ueAll_escape u _ ['\\', c] _ ?_
    simp only [letterEscapes, hexEscapes, List.map_cons, List.map_nil, List.mem_cons, List.not_mem_nil, or_false,
      not_or] at h1 h2
    obtain ⟨a1, a2, a3, a4, a5, a6, a7, a8, a9, a10⟩ := h1
    obtain ⟨b1, b2, b3⟩ := h2
    have h5 : isDigitOf 8 c = false := by
      by_contra hc
      rw [Bool.not_eq_false, octal_iff, h4] at hc
      cases hc
    have h6 : c ≠ '\n' := by rintro rfl; revert hp; decide
    have h7 : simpleEscape c = none := by
      simp only [simpleEscape, List.lookup, beq_eq_false_iff_ne.2 a1, beq_eq_false_iff_ne.2 a2,
        beq_eq_false_iff_ne.2 a3, beq_eq_false_iff_ne.2 a4, beq_eq_false_iff_ne.2 a5, beq_eq_false_iff_ne.2 a6,
        beq_eq_false_iff_ne.2 a7, beq_eq_false_iff_ne.2 a8, beq_eq_false_iff_ne.2 a9, beq_eq_false_iff_ne.2 a10]
    simp only [ueEscape, beq_eq_false_iff_ne.2 h6, h7, h5, beq_eq_false_iff_ne.2 b1, beq_eq_false_iff_ne.2 b2,
      beq_eq_false_iff_ne.2 b3, beq_eq_false_iff_ne.2 h3, Bool.false_eq_true, if_false]

theorem stringLit_spells (u : UniData) {t v : List Char} (h : Spells t v) : stringLit u t = some (String.ofList v) := by
  rw [stringLit_eq]
  have : ueAll u (t.flatMap spelled) = some v := by
    induction h with
    | nil => rfl
    | cons i t v s hi _ ih => rw [ueAll_unit u hi, ih]; rfl
  rw [this]; rfl

/-! ### Malformed escapes -/

theorem readNat_some {base : Nat} : ∀ {ds : List Char} {acc n : Nat}, readNat base acc ds = some n →
    ∀ c ∈ ds, ∃ d, d < base ∧ digitVal c = some d
  | [], _, _, _, c, hc => by simp at hc
  | x :: ds, acc, n, h, c, hc => by
    simp only [readNat] at h
    split at h
    · rename_i d hd
      split at h
      · rename_i hlt
        rcases List.mem_cons.1 hc with rfl | hc
        · exact ⟨d, hlt, hd⟩
        · exact readNat_some h c hc
      · cases h
    · cases h

theorem readNat_digits_of {base : Nat} {ds : List Char} {acc n : Nat} (h : readNat base acc ds = some n) :
    IsDigits base ds := by
  intro c hc
  obtain ⟨d, hd, hv⟩ := readNat_some h c hc
  exact ⟨d, hd, (digitVal_char hv).2⟩

theorem spelled_take : ∀ (w : Nat) (r : List Char), IsDigits 16 ((r.flatMap spelled).take w) →
    (r.flatMap spelled).take w = r.take w
  | 0, _, _ => by simp
  | w + 1, [], _ => rfl
  | w + 1, c :: r, h => by
    rw [List.flatMap_cons] at h ⊢
    by_cases hc : isPlainAscii c = true
    · rw [plain_spelled hc] at h ⊢
      simp only [List.cons_append, List.nil_append, List.take_succ_cons] at h ⊢
      rw [spelled_take w r (fun x hx => h x (by simp [hx]))]
    · obtain ⟨r', hr'⟩ := spelled_head (by simpa using hc)
      rw [hr'] at h
      have := h '\\' (by simp)
      obtain ⟨d, hd, hdc⟩ := this
      exfalso
      have key : ∀ d < 16, '\\' ≠ lowerDigits[d]! ∧ '\\' ≠ upperDigits[d]! := by decide
      rcases hdc with h1 | h1
      · exact (key d hd).1 h1
      · exact (key d hd).2 h1

theorem ueAll_badEscape (u : UniData) {t : List Char} (h : BadEscape t) : ueAll u (t.flatMap spelled) = none := by
  obtain ⟨c, w, r, hc, rfl, hno⟩ := h
  have hs : spelled '\\' = ['\\'] := rfl
  simp only [List.flatMap_cons, hs, plain_spelled (hexLetter_plain _ hc), List.cons_append, List.nil_append]
  refine ueAll_bad u _ ?_
  rw [ueEscape_hex u hc]
  unfold hexEscape
  split
  · rename_i hlen
    split
    · rename_i n hn
      split
      · rename_i hle
        exfalso
        have hd := readNat_digits_of hn
        have hnum : n = digitsNum 16 ((r.flatMap spelled).take w) := by
          have := readNat_digits 16 (by omega) _ hd 0
          rw [hn] at this
          simpa using this
        have ht := spelled_take w r hd
        rw [ht] at hd hnum hlen
        exact hno ⟨r.take w, r.drop w, by simp, hlen, hd, by omega⟩
      · rfl
    · rfl
  · rfl

theorem stringLit_malformed (u : UniData) {t : List Char} (h : Malformed t) : stringLit u t = none := by
  rw [stringLit_eq]
  have : ueAll u (t.flatMap spelled) = none := by
    induction h with
    | here t h => exact ueAll_badEscape u h
    | later i t v hi _ ih => rw [ueAll_unit u hi, ih]; rfl
  rw [this]; rfl

/-! ### Nothing else -/

/-- The escape at the front of `t` is one this specification says nothing about: a name, a surrogate, or a
backslash before a character that is not printable ASCII. -/
def OtherEscape (t : List Char) : Prop :=
  ∃ c r, t = '\\' :: c :: r ∧ (c = 'N' ∨ isPlainAscii c = false ∨
    ∃ w ds rest, (c, w) ∈ hexEscapes ∧ r = ds ++ rest ∧ ds.length = w ∧ IsDigits 16 ds ∧
      digitsNum 16 ds ≤ 0x10ffff ∧ ¬ (digitsNum 16 ds).isValidChar)

/-- There is such an escape in `t`, or it ends with a backslash. -/
inductive Beyond : List Char → Prop
  | slash : Beyond ['\\']
  | here (t : List Char) : OtherEscape t → Beyond t
  | later (i t v : List Char) : StrUnit i t v → Beyond t → Beyond (i ++ t)

theorem octal_front : ∀ (n : Nat) (r : List Char), ∃ ds rest, r = ds ++ rest ∧ ds.length ≤ n ∧
    ds.all isOctal = true ∧ (ds.length = n ∨ headAll (fun c => !isOctal c) rest = true)
  | 0, r => ⟨[], r, rfl, by simp, rfl, .inl rfl⟩
  | n + 1, [] => ⟨[], [], rfl, by simp, rfl, .inr rfl⟩
  | n + 1, c :: r => by
    by_cases hc : isOctal c = true
    · obtain ⟨ds, rest, h1, h2, h3, h4⟩ := octal_front n r
      refine ⟨c :: ds, rest, by rw [h1]; rfl, by simpa using h2, by simp [hc, h3], ?_⟩
      rcases h4 with h4 | h4
      · left; simpa using h4
      · exact .inr h4
    · exact ⟨[], c :: r, rfl, by simp, rfl, .inr (by simpa [headAll] using hc)⟩

/-- Every text begins with a unit, or with an escape that is malformed or beyond the specification. -/
theorem unit_or (t : List Char) : t = [] ∨ (∃ i r v, t = i ++ r ∧ i ≠ [] ∧ StrUnit i r v) ∨ BadEscape t ∨ Beyond t := by
  cases t with
  | nil => exact .inl rfl
  | cons c r =>
    right
    by_cases hc : c = '\\'
    · subst hc
      cases r with
      | nil => exact .inr (.inr .slash)
      | cons d r =>
        by_cases hp : isPlainAscii d = true
        · by_cases hl : d ∈ letterEscapes.map (·.1)
          · simp only [List.mem_map] at hl
            obtain ⟨⟨d', v⟩, hm, rfl⟩ := hl
            exact .inl ⟨['\\', d'], r, [v], rfl, by simp, .letter d' v r hm⟩
          · by_cases hh : d ∈ hexEscapes.map (·.1)
            · simp only [List.mem_map] at hh
              obtain ⟨⟨d', w⟩, hm, rfl⟩ := hh
              by_cases hg : ∃ ds rest, r = ds ++ rest ∧ ds.length = w ∧ IsDigits 16 ds ∧ digitsNum 16 ds ≤ 0x10ffff
              · obtain ⟨ds, rest, rfl, hlen, hd, hle⟩ := hg
                by_cases hv : (digitsNum 16 ds).isValidChar
                · exact .inl ⟨'\\' :: d' :: ds, rest, _, rfl, by simp, .hex d' w ds rest hm hlen hd hv⟩
                · exact .inr (.inr (.here _ ⟨d', _, rfl, .inr (.inr ⟨w, ds, rest, hm, rfl, hlen, hd, hle, hv⟩)⟩))
              · exact .inr (.inl ⟨d', w, r, hm, rfl, hg⟩)
            · by_cases hN : d = 'N'
              · exact .inr (.inr (.here _ ⟨d, r, rfl, .inl hN⟩))
              · by_cases ho : isOctal d = true
                · obtain ⟨ds, rest, rfl, h2, h3, h4⟩ := octal_front 2 r
                  refine .inl ⟨'\\' :: d :: ds, rest, _, rfl, by simp, .octal (d :: ds) rest (by simp) (by simpa using h2)
                    (by simp [ho, h3]) ?_⟩
                  rcases h4 with h4 | h4
                  · left; simpa using h4
                  · exact .inr h4
                · exact .inl ⟨['\\', d], r, _, rfl, by simp, .other d r hp hl hh hN (by simpa using ho)⟩
        · exact .inr (.inr (.here _ ⟨d, r, rfl, .inr (.inl (by simpa using hp))⟩))
    · exact .inl ⟨[c], r, [c], rfl, by simp, .char c r hc⟩

/-- Every text spells something, has a malformed escape, or one beyond the specification. -/
theorem spells_or : ∀ (n : Nat) (t : List Char), t.length ≤ n → (∃ v, Spells t v) ∨ Malformed t ∨ Beyond t
  | 0, t, h => by
    have : t = [] := List.length_eq_zero_iff.1 (by omega)
    subst this; exact .inl ⟨[], .nil⟩
  | n + 1, t, h => by
    rcases unit_or t with rfl | ⟨i, r, v, rfl, hne, hu⟩ | hb | hb
    · exact .inl ⟨[], .nil⟩
    · have hlen : r.length ≤ n := by
        have : 0 < i.length := List.length_pos_iff.2 hne
        simp only [List.length_append] at h
        omega
      rcases spells_or n r hlen with ⟨s, hs⟩ | hm | hb
      · exact .inl ⟨_, .cons i r v s hu hs⟩
      · exact .inr (.inl (.later i r v hu hm))
      · exact .inr (.inr (.later i r v hu hb))
    · exact .inr (.inl (.here t hb))
    · exact .inr (.inr hb)

/-! ## C51 on rules -/

/-- the letters a string literal may start with -/
def IsStringText (t m : List Char) : Prop :=
  ∃ q, isQuote q = true ∧ quotedBody q t = true ∧ (m = q :: (t ++ [q]) ∨ m = 's' :: q :: (t ++ [q]))

/-- the tokens of a text that is one token -/
theorem lex_single (line : Nat) (x : Lexeme) (m pre post : List Char) (hw : Written x m) (he : ∀ b, Ends b x m post)
    (ha : attached x = false) (hpre : ∀ c ∈ pre, isGap c = true) (hpost : ∀ c ∈ post, isGap c = true) :
    ∃ tok l, lexText line (pre ++ m ++ post) = ([tok], .eof l) ∧ tok.lex = x := by
  obtain ⟨h1, h2⟩ := laid_single x m pre post hw he ha hpre hpost
  obtain ⟨h3, h4⟩ := lex_laid line _ h1
  rw [h2.1] at h3 h4
  rw [h2.2] at h3
  rcases hl : lexText line (pre ++ m ++ post) with ⟨_ | ⟨tok, _ | ⟨_, _⟩⟩, stop⟩
  · rw [hl] at h3; simp at h3
  · rw [hl] at h3 h4
    simp only [List.map_cons, List.map_nil, List.cons.injEq, and_true] at h3
    exact ⟨tok, _, congrArg (Prod.mk [tok]) h4, h3⟩
  · rw [hl] at h3; simp at h3

/-- A string that does not decode. -/
theorem parse_bad_string (codec : LitCodec) (tok : Tok) (l : Nat) (x : List Char) (h : tok.lex = ⟨.STRING, x⟩)
    (hx : codec.str x.tail.dropLast = none) : parseToks codec [tok] (.eof l) = ⟨.error .badString, l⟩ := by
  obtain ⟨lex, line, pos⟩ := tok
  subst h
  refine parseToks_of_reach (d := ⟨[(18, .tok ⟨.STRING, x⟩)], []⟩) (.step rfl (.refl _)) ?_
  have h0 : defaulted 18 = none := by decide +kernel
  have h1 : action 18 .END = some (.reduce 48) := by decide +kernel
  have h2 : productions[48]? = some (.object, 1) := by decide +kernel
  simp only [pstep, topState, h0, h1, reduceBy, h2, List.length_cons, List.length_nil, semAct, List.take, List.reverse_cons,
    List.reverse_nil, List.nil_append, List.map_cons, List.map_nil, actString, hx, aheadLine]
  rfl

/-- Bytes that do not decode. -/
theorem parse_bad_bytes (codec : LitCodec) (tok : Tok) (l : Nat) (x : List Char) (h : tok.lex = ⟨.BYTES, x⟩)
    (hx : codec.bytes x = none) : parseToks codec [tok] (.eof l) = ⟨.error .badBytes, l⟩ := by
  obtain ⟨lex, line, pos⟩ := tok
  subst h
  refine parseToks_of_reach (d := ⟨[(13, .tok ⟨.BYTES, x⟩)], []⟩) (.step rfl (.refl _)) ?_
  have h0 : defaulted 13 = none := by decide +kernel
  have h1 : action 13 .END = some (.reduce 39) := by decide +kernel
  have h2 : productions[39]? = some (.object, 1) := by decide +kernel
  simp only [pstep, topState, h0, h1, reduceBy, h2, List.length_cons, List.length_nil, semAct, List.take, List.reverse_cons,
    List.reverse_nil, List.nil_append, List.map_cons, List.map_nil, actBytes, hx, aheadLine]
  rfl

/-- What `Rule(text).evaluate(thing)` gives for a string literal. -/
theorem run_string (u : UniData) (env : Env) (p : Proc) (thing : Value) {t m pre post : List Char}
    (hm : IsStringText t m) (hpre : ∀ c ∈ pre, isGap c = true) (hpost : ∀ c ∈ post, isGap c = true) :
    p.run (pyCodec u) env (String.ofList (pre ++ m ++ post)) thing =
      match stringLit u t with
      | some v => .ok (.str v)
      | none => .error (.eng .stringSyntax) := by
  obtain ⟨q, hq, ht, hm⟩ := hm
  have hw : Written ⟨.STRING, q :: (t ++ [q])⟩ m := by
    refine ⟨⟨q, t, hq, ht, rfl⟩, ?_⟩
    rcases hm with rfl | rfl
    · exact .inl rfl
    · exact .inr rfl
  have he : ∀ b, Ends b ⟨.STRING, q :: (t ++ [q])⟩ m post := fun _ => ⟨rfl, fun h => by cases h⟩
  have h3 : (q :: (t ++ [q])).tail.dropLast = t := by simp
  cases hv : stringLit u t with
  | some v =>
    have := parse_single (pyCodec u) p.line (.str (q :: (t ++ [q]))) (by
      simp only [Syn.wf, h3]
      show (stringLit u t).isSome = true
      rw [hv]; rfl) ⟨.STRING, q :: (t ++ [q])⟩ rfl m pre post hw he rfl hpre hpost
    have hr : Syn.raw (pyCodec u) (.str (q :: (t ++ [q]))) = .lit (.str v) := by
      simp only [Syn.raw, h3]
      show Raw.lit (.str ((stringLit u t).getD "")) = _
      rw [hv]; rfl
    rw [hr] at this
    simp only [Proc.run, Proc.rule, parseRule, this]
    rfl
  | none =>
    obtain ⟨tok, l, h1, h2⟩ := lex_single p.line _ m pre post hw he rfl hpre hpost
    have h4 := parse_bad_string (pyCodec u) tok l _ h2 (by rw [h3]; exact hv)
    have h5 : parseText (pyCodec u) p.line (String.ofList (pre ++ m ++ post)) = ⟨.error .badString, l⟩ := by
      rw [parseText_eq, String.toList_ofList, h1, h4]
    simp only [Proc.run, Proc.rule, parseRule, h5]
    rfl

/-- **C51.** A string literal evaluates to the string it spells: any character but the backslash for itself, and the
escapes for what they denote. -/
theorem string_literal_exact (u : UniData) (env : Env) (p : Proc) (thing : Value) (t v m pre post : List Char)
    (hm : IsStringText t m) (hs : Spells t v) (hpre : ∀ c ∈ pre, isGap c = true) (hpost : ∀ c ∈ post, isGap c = true) :
    p.run (pyCodec u) env (String.ofList (pre ++ m ++ post)) thing = .ok (.str (String.ofList v)) := by
  rw [run_string u env p thing hm hpre hpost, stringLit_spells u hs]

/-- **C51.** A string literal with a malformed escape raises a StringSyntaxError. -/
theorem string_literal_malformed (u : UniData) (env : Env) (p : Proc) (thing : Value) (t m pre post : List Char)
    (hm : IsStringText t m) (hs : Malformed t) (hpre : ∀ c ∈ pre, isGap c = true)
    (hpost : ∀ c ∈ post, isGap c = true) :
    p.run (pyCodec u) env (String.ofList (pre ++ m ++ post)) thing = .error (.eng .stringSyntax) := by
  rw [run_string u env p thing hm hpre hpost, stringLit_malformed u hs]

/-- **C51.** There are no other string literals but those with escapes this specification says nothing about. -/
theorem string_literal_cases (t : List Char) : (∃ v, Spells t v) ∨ Malformed t ∨ Beyond t :=
  spells_or t.length t (Nat.le_refl _)

/-- how to write a character in double quotes -/
def writeChar (c : Char) : List Char :=
  if c = '\\' then ['\\', '\\'] else if c = '"' then ['\\', '"'] else if c = '\n' then ['\\', 'n'] else [c]

/-- how to write a string in double quotes -/
def writeString (s : List Char) : List Char := '"' :: (s.flatMap writeChar ++ ['"'])

theorem write_spells : ∀ s : List Char, Spells (s.flatMap writeChar) s
  | [] => .nil
  | c :: s => by
    rw [List.flatMap_cons]
    refine .cons (writeChar c) _ [c] s ?_ (write_spells s)
    unfold writeChar
    split
    · rename_i h; subst h; exact .letter '\\' '\\' _ (by decide)
    · split
      · rename_i h; subst h; exact .letter '"' '"' _ (by decide)
      · split
        · rename_i h; subst h; exact .letter 'n' '\n' _ (by decide)
        · rename_i h _ _; exact .char c _ h

theorem write_quoted : ∀ s : List Char, quotedBody '"' (s.flatMap writeChar) = true
  | [] => rfl
  | c :: s => by
    have ih := write_quoted s
    rw [List.flatMap_cons]
    generalize s.flatMap writeChar = r at ih ⊢
    unfold writeChar
    split
    · simp only [List.cons_append, List.nil_append, quotedBody, ih]; rfl
    · split
      · simp only [List.cons_append, List.nil_append, quotedBody, ih]; rfl
      · split
        · simp only [List.cons_append, List.nil_append, quotedBody, ih]; rfl
        · rename_i h1 h2 h3
          simp only [List.cons_append, List.nil_append]
          rw [quotedBody]
          · simp [h2, h3, ih]
          · intro _ _ h; exact absurd h h1
          · intro h; exact absurd h h1

/-- **C51.** Every string can be written as a rule, and read back. -/
theorem every_string_written (u : UniData) (env : Env) (p : Proc) (thing : Value) (s : String) :
    p.run (pyCodec u) env (String.ofList (writeString s.toList)) thing = .ok (.str s) := by
  have := string_literal_exact u env p thing (s.toList.flatMap writeChar) s.toList (writeString s.toList) [] []
    ⟨'"', rfl, write_quoted _, .inl rfl⟩ (write_spells _) (by simp) (by simp)
  simpa using this

/-- no names, and a stand-in for surrogates -/
def plainUni : UniData := ⟨fun _ => none, fun _ => '?'⟩

/-- The hypotheses are met; and what happens to a backslash before a character that is not printable ASCII: it is
followed by the escape of that character instead of the character. -/
example :
    Proc.new.run (pyCodec plainUni) sampleEnv "'caf\\xe9 é \\U0001F600\\n\\101\\q'" .none = .ok (.str "café é 😀\nA\\q") ∧
    Proc.new.run (pyCodec plainUni) sampleEnv "\"a\\x4\"" .none = .error (.eng .stringSyntax) ∧
    Proc.new.run (pyCodec plainUni) sampleEnv "s'\\U00110000'" .none = .error (.eng .stringSyntax) ∧
    Proc.new.run (pyCodec plainUni) sampleEnv "'C:\\été'" .none = .ok (.str "C:\\xe9té") := by
  refine ⟨?_, ?_, ?_, ?_⟩ <;> decide +kernel

example : Spells "\\x41é".toList ['A', 'é'] ∧ Malformed "é\\u12".toList := by
  refine ⟨?_, ?_⟩
  · refine .cons "\\x41".toList _ ['A'] _ (.hex 'x' 2 ['4', '1'] _ (by decide) rfl ?_ ?_) (.cons ['é'] [] _ _ (.char _ _ (by decide)) .nil)
    · intro c hc
      simp only [List.mem_cons, List.not_mem_nil, or_false] at hc
      rcases hc with rfl | rfl
      · exact ⟨4, by decide, by decide⟩
      · exact ⟨1, by decide, by decide⟩
    · left; decide
  · refine .later ['é'] "\\u12".toList _ (.char _ _ (by decide)) (.here _ ⟨'u', 4, ['1', '2'], by decide, rfl, ?_⟩)
    rintro ⟨ds, rest, h1, h2, -⟩
    have := congrArg List.length h1
    simp at this
    omega

/-! ## C52: bytes literals -/

/-- ASCII, but not the null character -/
def isAscii1 (c : Char) : Bool := decide (0 < c.toNat) && decide (c.toNat < 128)

/-- the byte with the code of a character -/
def byteOf (c : Char) : UInt8 := UInt8.ofNat c.toNat

/-- `ByteUnit i t v`: `i`, when followed by `t`, is one unit of a bytes literal, and stands for the bytes `v`. -/
inductive ByteUnit : List Char → List Char → List UInt8 → Prop
  /-- a character stands for itself -/
  | char (c : Char) (t : List Char) : isAscii1 c = true → c ≠ '\\' → c ≠ '\n' → c ≠ '\r' → ByteUnit [c] t [byteOf c]
  /-- a line that ends with a backslash is continued -/
  | skip (c : Char) (t : List Char) : c = '\n' ∨ c = '\r' → ByteUnit ['\\', c] t []
  | letter (c v : Char) (t : List Char) : (c, v) ∈ letterEscapes → ByteUnit ['\\', c] t [byteOf v]
  /-- `\x41` -/
  | hex (a b : Char) (t : List Char) : IsDigits 16 [a, b] →
      ByteUnit ['\\', 'x', a, b] t [UInt8.ofNat (digitsNum 16 [a, b])]
  /-- at most three octal digits, as many as there are; only the low eight bits count -/
  | octal (ds t : List Char) : ds ≠ [] → ds.length ≤ 3 → ds.all isOctal = true →
      (ds.length = 3 ∨ headAll (fun c => !isOctal c) t = true) → ByteUnit ('\\' :: ds) t [UInt8.ofNat (digitsNum 8 ds)]
  /-- a backslash before any other character stands for itself -/
  | other (c : Char) (t : List Char) : isAscii1 c = true → c ∉ letterEscapes.map (·.1) → c ≠ 'x' → c ≠ '\n' → c ≠ '\r' →
      isOctal c = false → ByteUnit ['\\', c] t [byteOf '\\', byteOf c]

/-- `t` between quotes spells the bytes `v`. -/
inductive SpellsBytes : List Char → List UInt8 → Prop
  | nil : SpellsBytes [] []
  | cons (i t : List Char) (v s : List UInt8) : ByteUnit i t v → SpellsBytes t s → SpellsBytes (i ++ t) (v ++ s)

theorem simpleEscape_iff (c v : Char) : simpleEscape c = some v ↔ (c, v) ∈ letterEscapes := by
  constructor
  · intro h
    unfold simpleEscape at h
    exact lookup_mem h
  · intro hc
    simp only [letterEscapes, List.mem_cons, Prod.mk.injEq, List.not_mem_nil, or_false] at hc
    rcases hc with ⟨rfl, rfl⟩ | ⟨rfl, rfl⟩ | ⟨rfl, rfl⟩ | ⟨rfl, rfl⟩ | ⟨rfl, rfl⟩ | ⟨rfl, rfl⟩ | ⟨rfl, rfl⟩ |
      ⟨rfl, rfl⟩ | ⟨rfl, rfl⟩ | ⟨rfl, rfl⟩ <;> rfl

theorem simpleEscape_none {c : Char} (h : c ∉ letterEscapes.map (·.1)) : simpleEscape c = none := by
  cases hs : simpleEscape c with
  | none => rfl
  | some v => exact absurd (List.mem_map.2 ⟨(c, v), (simpleEscape_iff c v).1 hs, rfl⟩) h

theorem byteEscape_shrinks {r rest : List Char} {v : List UInt8} (h : byteEscape r = some (v, rest)) :
    rest.length < r.length := by
  unfold byteEscape at h
  cases r with
  | nil => cases h
  | cons c r =>
    simp only [List.length_cons] at h ⊢
    split at h
    · cases h; omega
    · split at h
      · cases h; omega
      · split at h
        · simp only [Option.some.injEq, Prod.mk.injEq] at h
          have := takeOctal_rest 2 r
          rw [← h.2]; omega
        · split at h
          · split at h
            · split at h
              · simp only [Option.some.injEq, Prod.mk.injEq] at h
                rw [← h.2]; simp; omega
              · cases h
            · cases h
          · cases h; omega

theorem bytesDecode_fuel : ∀ (n m : Nat) (t : List Char), t.length ≤ n → t.length ≤ m →
    bytesDecode n t = bytesDecode m t
  | 0, 0, _, _, _ => rfl
  | 0, m + 1, t, hn, _ => by
    have : t = [] := List.length_eq_zero_iff.1 (by omega)
    subst this; rfl
  | n + 1, 0, t, _, hm => by
    have : t = [] := List.length_eq_zero_iff.1 (by omega)
    subst this; rfl
  | n + 1, m + 1, [], _, _ => rfl
  | n + 1, m + 1, c :: r, hn, hm => by
    simp only [List.length_cons, Nat.add_le_add_iff_right] at hn hm
    simp only [bytesDecode]
    split
    · cases he : byteEscape r with
      | none => rfl
      | some p =>
        obtain ⟨v, rest⟩ := p
        have := byteEscape_shrinks he
        simp only
        rw [bytesDecode_fuel n m rest (by omega) (by omega)]
    · split
      · rfl
      · rw [bytesDecode_fuel n m r hn hm]

theorem bytesDecode_escape (r rest : List Char) (v : List UInt8) (h : byteEscape r = some (v, rest)) :
    bytesDecode ('\\' :: r).length ('\\' :: r) = (bytesDecode rest.length rest).map (v ++ ·) := by
  have := byteEscape_shrinks h
  simp only [List.length_cons, bytesDecode, beq_self_eq_true, if_true, h]
  rw [bytesDecode_fuel _ _ rest (by omega) (Nat.le_refl _)]

theorem takeOctal_spec : ∀ (n : Nat) (r : List Char), r = (takeOctal n r).1 ++ (takeOctal n r).2 ∧
    (takeOctal n r).1.length ≤ n ∧ (takeOctal n r).1.all isOctal = true ∧
    ((takeOctal n r).1.length = n ∨ headAll (fun c => !isOctal c) (takeOctal n r).2 = true) := by
  intro n r
  obtain ⟨ds, rest, rfl, h1, h2, h3⟩ := octal_front n r
  rw [takeOctal_digits n ds rest h2 h1 h3]
  exact ⟨rfl, h1, h2, h3⟩

theorem escape_of_unit {i t : List Char} {v : List UInt8} (h : ByteUnit i t v) :
    (∃ c, i = [c] ∧ c ≠ '\\' ∧ c ≠ '\n' ∧ c ≠ '\r' ∧ v = [byteOf c]) ∨
    ∃ j, i = '\\' :: j ∧ byteEscape (j ++ t) = some (v, t) := by
  cases h with
  | char c _ _ h1 h2 h3 => exact .inl ⟨c, rfl, h1, h2, h3, rfl⟩
  | skip c _ hc =>
    right
    refine ⟨[c], rfl, ?_⟩
    rcases hc with rfl | rfl <;> rfl
  | letter c v _ hc =>
    right
    refine ⟨[c], rfl, ?_⟩
    simp only [letterEscapes, List.mem_cons, Prod.mk.injEq, List.not_mem_nil, or_false] at hc
    rcases hc with ⟨rfl, rfl⟩ | ⟨rfl, rfl⟩ | ⟨rfl, rfl⟩ | ⟨rfl, rfl⟩ | ⟨rfl, rfl⟩ | ⟨rfl, rfl⟩ | ⟨rfl, rfl⟩ |
      ⟨rfl, rfl⟩ | ⟨rfl, rfl⟩ | ⟨rfl, rfl⟩ <;> rfl
  | hex a b _ hd =>
    right
    refine ⟨['x', a, b], rfl, ?_⟩
    have hn : readNat 16 0 [a, b] = some (digitsNum 16 [a, b]) := by
      rw [readNat_digits 16 (by omega) _ hd]; simp
    have h1 : ('x' == '\n' || 'x' == '\r') = false := rfl
    have h2 : simpleEscape 'x' = none := rfl
    have h3 : isDigitOf 8 'x' = false := rfl
    simp only [byteEscape, List.cons_append, List.nil_append, List.take, List.drop, hn, h1, h2, h3, beq_self_eq_true,
      Bool.false_eq_true, if_false, if_true, List.length_cons, List.length_nil]
  | octal ds _ hne hl hd hnext =>
    right
    refine ⟨ds, rfl, ?_⟩
    obtain ⟨c, ds, rfl⟩ := List.exists_cons_of_ne_nil hne
    have hd' := hd
    simp only [List.all_cons, Bool.and_eq_true] at hd'
    have hnum : readNat 8 0 (c :: ds) = some (digitsNum 8 (c :: ds)) := by
      rw [readNat_digits 8 (by omega) _ (octal_digits hd)]; simp
    have htake := takeOctal_digits 2 ds t hd'.2 (by simpa using hl) (by
      rcases hnext with h | h
      · left; simpa using h
      · exact .inr h)
    have h1 : (c == '\n' || c == '\r') = false := by
      rw [Bool.or_eq_false_iff, beq_eq_false_iff_ne, beq_eq_false_iff_ne]
      constructor <;> (rintro rfl; exact absurd hd'.1 (by decide))
    have h2 : simpleEscape c = none := by
      have := hd'.1
      simp only [isOctal, decide_eq_true_eq, List.mem_cons, List.not_mem_nil, or_false] at this
      rcases this with rfl | rfl | rfl | rfl | rfl | rfl | rfl | rfl <;> rfl
    simp only [List.cons_append, byteEscape, h1, Bool.false_eq_true, if_false, h2, (octal_iff c).2 hd'.1, if_true, htake,
      hnum, Option.getD_some]
  | other c _ ha h1 h2 h3 h4 h5 =>
    right
    refine ⟨[c], rfl, ?_⟩
    have h6 : isDigitOf 8 c = false := by
      by_contra hc
      rw [Bool.not_eq_false, octal_iff, h5] at hc
      cases hc
    simp only [List.cons_append, List.nil_append, byteEscape, beq_eq_false_iff_ne.2 h2, beq_eq_false_iff_ne.2 h3,
      beq_eq_false_iff_ne.2 h4, simpleEscape_none h1, h6, Bool.or_self, Bool.false_eq_true, if_false]
    rfl

theorem unit_of_escape {r rest : List Char} {v : List UInt8} (ha : r.all isAscii1 = true)
    (h : byteEscape r = some (v, rest)) : ∃ j, r = j ++ rest ∧ ByteUnit ('\\' :: j) rest v := by
  unfold byteEscape at h
  cases r with
  | nil => cases h
  | cons c r =>
    simp only [List.all_cons, Bool.and_eq_true] at ha
    simp only at h
    split at h
    · rename_i hc
      cases h
      simp only [Bool.or_eq_true, beq_iff_eq] at hc
      exact ⟨[c], rfl, .skip c _ hc⟩
    · rename_i hnl
      simp only [Bool.or_eq_true, beq_iff_eq, not_or] at hnl
      split at h
      · rename_i d hd
        cases h
        exact ⟨[c], rfl, .letter c d _ ((simpleEscape_iff c d).1 hd)⟩
      · rename_i hs
        split at h
        · rename_i ho
          simp only [Option.some.injEq, Prod.mk.injEq] at h
          obtain ⟨h1, h2, h3, h4⟩ := takeOctal_spec 2 r
          obtain ⟨hv, rfl⟩ := h
          have hall : (c :: (takeOctal 2 r).1).all isOctal = true := by simp [(octal_iff c).1 ho, h3]
          have hnum : readNat 8 0 (c :: (takeOctal 2 r).1) = some (digitsNum 8 (c :: (takeOctal 2 r).1)) := by
            rw [readNat_digits 8 (by omega) _ (octal_digits hall)]; simp
          rw [hnum, Option.getD_some] at hv
          refine ⟨c :: (takeOctal 2 r).1, by rw [List.cons_append, ← h1], ?_⟩
          rw [← hv]
          refine .octal _ _ (by simp) (by simpa using h2) hall ?_
          rcases h4 with h4 | h4
          · left; simpa using h4
          · exact .inr h4
        · rename_i ho
          split at h
          · rename_i hx
            simp only [beq_iff_eq] at hx
            subst hx
            split at h
            · rename_i hlen
              split at h
              · rename_i n hn
                simp only [Option.some.injEq, Prod.mk.injEq] at h
                obtain ⟨hv, rfl⟩ := h
                rcases r with _ | ⟨a, _ | ⟨b, r⟩⟩
                · simp at hlen
                · simp at hlen
                · simp only [List.take, List.drop] at hn hv ⊢
                  have hd := readNat_digits_of hn
                  have := readNat_digits 16 (by omega) _ hd 0
                  rw [hn] at this
                  simp only [Option.some.injEq, Nat.zero_mul, Nat.zero_add] at this
                  refine ⟨['x', a, b], rfl, ?_⟩
                  rw [← hv, this]
                  exact .hex a b r hd
              · cases h
            · cases h
          · rename_i hx
            simp only [beq_iff_eq] at hx
            cases h
            refine ⟨[c], rfl, .other c _ ha.1 ?_ hx hnl.1 hnl.2 ?_⟩
            · intro hm
              simp only [List.mem_map] at hm
              obtain ⟨⟨c', d⟩, hm, rfl⟩ := hm
              rw [(simpleEscape_iff c' d).2 hm] at hs
              cases hs
            · by_contra hc
              rw [Bool.not_eq_false, ← octal_iff] at hc
              exact ho hc

theorem bytesDecode_iff : ∀ (n : Nat) (t : List Char) (v : List UInt8), t.length ≤ n → t.all isAscii1 = true →
    (bytesDecode t.length t = some v ↔ SpellsBytes t v)
  | n, [], v, _, _ => by
    constructor
    · intro h
      simp only [List.length_nil, bytesDecode, Option.some.injEq] at h
      subst h; exact .nil
    · intro h
      generalize ht : ([] : List Char) = t at h
      cases h with
      | nil => rfl
      | cons i t v s hi _ =>
        have : i = [] := (List.append_eq_nil_iff.1 ht.symm).1
        subst this
        rcases escape_of_unit hi with ⟨_, h, _⟩ | ⟨_, h, _⟩ <;> cases h
  | 0, c :: r, _, h, _ => by simp at h
  | n + 1, c :: r, v, hn, ha => by
    simp only [List.length_cons, Nat.add_le_add_iff_right] at hn
    have ha' := ha
    simp only [List.all_cons, Bool.and_eq_true] at ha'
    constructor
    · intro h
      by_cases hc : c = '\\'
      · subst hc
        cases he : byteEscape r with
        | none => simp only [List.length_cons, bytesDecode, beq_self_eq_true, if_true, he] at h; cases h
        | some p =>
          obtain ⟨w, rest⟩ := p
          rw [bytesDecode_escape r rest w he, Option.map_eq_some_iff] at h
          obtain ⟨s, hs, rfl⟩ := h
          obtain ⟨j, hj, hu⟩ := unit_of_escape ha'.2 he
          have hlen := byteEscape_shrinks he
          have hrest : rest.all isAscii1 = true := by
            have := ha'.2; rw [hj, List.all_append, Bool.and_eq_true] at this; exact this.2
          have := SpellsBytes.cons ('\\' :: j) rest w s hu ((bytesDecode_iff n rest s (by omega) hrest).1 hs)
          rw [hj]; exact this
      · have hb : (c == '\\') = false := by simpa using hc
        simp only [List.length_cons, bytesDecode, hb, Bool.false_eq_true, if_false] at h
        split at h
        · cases h
        · rename_i hnl
          simp only [Bool.or_eq_true, beq_iff_eq, not_or] at hnl
          rw [Option.map_eq_some_iff] at h
          obtain ⟨s, hs, rfl⟩ := h
          exact .cons [c] r [byteOf c] s (.char c r ha'.1 hc hnl.2 hnl.1) ((bytesDecode_iff n r s hn ha'.2).1 hs)
    · intro h
      generalize ht : c :: r = t at h
      cases h with
      | nil => cases ht
      | cons i t w s hu hs =>
        rcases escape_of_unit hu with ⟨d, rfl, h1, h2, h3, rfl⟩ | ⟨j, rfl, he⟩
        · simp only [List.cons_append, List.nil_append, List.cons.injEq] at ht
          obtain ⟨rfl, rfl⟩ := ht
          have ih := (bytesDecode_iff n r s hn ha'.2).2 hs
          simp only [List.cons_append, List.nil_append, List.length_cons, bytesDecode, beq_eq_false_iff_ne.2 h1,
            beq_eq_false_iff_ne.2 h2, beq_eq_false_iff_ne.2 h3, Bool.or_self, Bool.false_eq_true, if_false, ih]
          rfl
        · simp only [List.cons_append, List.cons.injEq] at ht
          obtain ⟨rfl, rfl⟩ := ht
          have hrest : t.all isAscii1 = true := by
            have := ha'.2; rw [List.all_append, Bool.and_eq_true] at this; exact this.2
          have ih := (bytesDecode_iff n t s (by simp at hn; omega) hrest).2 hs
          rw [List.cons_append, bytesDecode_escape _ t w he, ih]
          rfl

theorem spellsBytes_ascii {t : List Char} {v : List UInt8} (h : SpellsBytes t v) : t.all isAscii1 = true := by
  have hl : ∀ p ∈ letterEscapes, isAscii1 p.1 = true := by decide
  have hd : ∀ {b : Nat}, b ≤ 16 → ∀ {ds : List Char}, IsDigits b ds → ds.all isAscii1 = true := by
    intro b hb ds h
    rw [List.all_eq_true]
    intro c hc
    have := digits_plain hb h c hc
    simp only [isPlainAscii, isAscii1, Bool.and_eq_true, decide_eq_true_eq] at this ⊢
    omega
  have hb : isAscii1 '\\' = true := rfl
  induction h with
  | nil => rfl
  | cons i t v s hi _ ih =>
    rw [List.all_append, ih, Bool.and_true]
    cases hi with
    | char c _ h => simp [h]
    | skip c _ h => rcases h with rfl | rfl <;> rfl
    | letter c v _ h => simp [hb, hl _ h]
    | hex a b _ h =>
      have := hd (by omega) h
      simp only [List.all_cons, hb, Bool.true_and] at this ⊢
      rw [this]; rfl
    | octal ds _ _ _ h => simp [hb, hd (by omega) (octal_digits h)]
    | other c _ h => simp [hb, h]

theorem bytesLit_iff (q : Char) (t : List Char) (v : List UInt8) :
    bytesLit (q :: (t ++ [q])) = some v ↔ SpellsBytes t v := by
  have h1 : (q :: (t ++ [q])).tail.dropLast = t := by simp
  simp only [bytesLit, h1]
  constructor
  · intro h
    split at h
    · rename_i ha
      exact (bytesDecode_iff t.length t v (Nat.le_refl _) ha).1 h
    · cases h
  · intro h
    have ha := spellsBytes_ascii h
    have := (bytesDecode_iff t.length t v (Nat.le_refl _) ha).2 h
    unfold isAscii1 at ha
    rw [if_pos ha, this]

/-- What `Rule(text).evaluate(thing)` gives for a bytes literal. -/
theorem run_bytes (u : UniData) (env : Env) (p : Proc) (thing : Value) (q : Char) (hq : isQuote q = true)
    (t pre post : List Char) (ht : quotedBody q t = true) (hpre : ∀ c ∈ pre, isGap c = true)
    (hpost : ∀ c ∈ post, isGap c = true) :
    p.run (pyCodec u) env (String.ofList (pre ++ ('b' :: q :: (t ++ [q])) ++ post)) thing =
      match bytesLit (q :: (t ++ [q])) with
      | some v => .ok (.bytes v)
      | none => .error (.eng .bytesSyntax) := by
  have hw : Written ⟨.BYTES, q :: (t ++ [q])⟩ ('b' :: q :: (t ++ [q])) := ⟨⟨q, t, hq, ht, rfl⟩, rfl⟩
  have he : ∀ b, Ends b ⟨.BYTES, q :: (t ++ [q])⟩ ('b' :: q :: (t ++ [q])) post := fun _ => ⟨rfl, fun h => by cases h⟩
  cases hv : bytesLit (q :: (t ++ [q])) with
  | some v =>
    have := parse_single (pyCodec u) p.line (.bytes (q :: (t ++ [q]))) (by
      simp only [Syn.wf]
      show (bytesLit (q :: (t ++ [q]))).isSome = true
      rw [hv]; rfl) ⟨.BYTES, q :: (t ++ [q])⟩ rfl _ pre post hw he rfl hpre hpost
    have hr : Syn.raw (pyCodec u) (.bytes (q :: (t ++ [q]))) = .lit (.bytes v) := by
      simp only [Syn.raw]
      show Raw.lit (.bytes ((bytesLit (q :: (t ++ [q]))).getD [])) = _
      rw [hv]; rfl
    rw [hr] at this
    simp only [Proc.run, Proc.rule, parseRule, this]
    rfl
  | none =>
    obtain ⟨tok, l, h1, h2⟩ := lex_single p.line _ _ pre post hw he rfl hpre hpost
    have h4 := parse_bad_bytes (pyCodec u) tok l _ h2 hv
    have h5 : parseText (pyCodec u) p.line (String.ofList (pre ++ ('b' :: q :: (t ++ [q])) ++ post)) =
        ⟨.error .badBytes, l⟩ := by
      rw [parseText_eq, String.toList_ofList, h1, h4]
    simp only [Proc.run, Proc.rule, parseRule, h5]
    rfl

/-- **C52.** A bytes literal evaluates to the bytes it spells; if it spells none, a BytesSyntaxError is raised. -/
theorem bytes_literal_exact (u : UniData) (env : Env) (p : Proc) (thing : Value) (q : Char) (hq : isQuote q = true)
    (t pre post : List Char) (ht : quotedBody q t = true) (hpre : ∀ c ∈ pre, isGap c = true)
    (hpost : ∀ c ∈ post, isGap c = true) :
    (∀ v, SpellsBytes t v →
      p.run (pyCodec u) env (String.ofList (pre ++ ('b' :: q :: (t ++ [q])) ++ post)) thing = .ok (.bytes v)) ∧
    ((¬ ∃ v, SpellsBytes t v) →
      p.run (pyCodec u) env (String.ofList (pre ++ ('b' :: q :: (t ++ [q])) ++ post)) thing =
        .error (.eng .bytesSyntax)) := by
  rw [run_bytes u env p thing q hq t pre post ht hpre hpost]
  constructor
  · intro v hv
    rw [(bytesLit_iff q t v).2 hv]
  · intro h
    cases hb : bytesLit (q :: (t ++ [q])) with
    | none => rfl
    | some v => exact absurd ⟨v, (bytesLit_iff q t v).1 hb⟩ h

/-- how to write a byte -/
def writeByte (b : UInt8) : List Char := '\\' :: 'x' :: hexChars 2 b.toNat

/-- how to write bytes -/
def writeBytes (bs : List UInt8) : List Char := 'b' :: '"' :: (bs.flatMap writeByte ++ ['"'])

theorem writeByte_unit (b : UInt8) (t : List Char) : ByteUnit (writeByte b) t [b] := by
  have h1 := hexChars_digits 2 b.toNat
  have h2 := hexChars_num 2 b.toNat (by have := b.toNat_lt; omega)
  have h3 := hexChars_length 2 b.toNat
  unfold writeByte
  rcases hh : hexChars 2 b.toNat with _ | ⟨x, _ | ⟨y, _ | ⟨z, r⟩⟩⟩
  · rw [hh] at h3; simp at h3
  · rw [hh] at h3; simp at h3
  · rw [hh] at h1 h2
    have := ByteUnit.hex x y t h1
    rw [h2, UInt8.ofNat_toNat] at this
    exact this
  · rw [hh] at h3; simp at h3

theorem writeBytes_spells : ∀ bs : List UInt8, SpellsBytes (bs.flatMap writeByte) bs
  | [] => .nil
  | b :: bs => by
    rw [List.flatMap_cons]
    exact .cons _ _ [b] bs (writeByte_unit b _) (writeBytes_spells bs)

theorem writeBytes_quoted : ∀ bs : List UInt8, quotedBody '"' (bs.flatMap writeByte) = true
  | [] => rfl
  | b :: bs => by
    have ih := writeBytes_quoted bs
    rw [List.flatMap_cons]
    generalize bs.flatMap writeByte = r at ih ⊢
    have hp := digits_plain (by omega) (hexChars_digits 2 b.toNat)
    have hq : ∀ c ∈ hexChars 2 b.toNat, c ≠ '"' ∧ c ≠ '\n' ∧ c ≠ '\\' := by
      intro c hc
      obtain ⟨d, hd, hcd⟩ := hexChars_digits 2 b.toNat c hc
      have key : ∀ d < 16, ∀ c ∈ [lowerDigits[d]!, upperDigits[d]!], c ≠ '"' ∧ c ≠ '\n' ∧ c ≠ '\\' := by decide
      exact key d hd c (by simpa using hcd)
    have go : ∀ ds : List Char, (∀ c ∈ ds, c ≠ '"' ∧ c ≠ '\n' ∧ c ≠ '\\') → quotedBody '"' (ds ++ r) = true := by
      intro ds
      induction ds with
      | nil => intro _; exact ih
      | cons c ds ihd =>
        intro h
        obtain ⟨h1, h2, h3⟩ := h c (by simp)
        rw [List.cons_append, quotedBody]
        · rw [ihd (fun x hx => h x (by simp [hx]))]
          simp [h1, h2]
        · intro _ _ h; exact absurd h h3
        · intro h; exact absurd h h3
    simp only [writeByte, List.cons_append, quotedBody, go _ hq]
    rfl

/-- **C52.** Every bytes value can be written as a rule, and read back. -/
theorem every_bytes_written (u : UniData) (env : Env) (p : Proc) (thing : Value) (bs : List UInt8) :
    p.run (pyCodec u) env (String.ofList (writeBytes bs)) thing = .ok (.bytes bs) := by
  have := (bytes_literal_exact u env p thing '"' rfl (bs.flatMap writeByte) [] [] (writeBytes_quoted bs) (by simp)
    (by simp)).1 bs (writeBytes_spells bs)
  simpa [writeBytes] using this

/-- the hypotheses are met -/
example :
    Proc.new.run (pyCodec plainUni) sampleEnv "b'a\\x00\\377\\q\\''" .none = .ok (.bytes [97, 0, 255, 92, 113, 39]) ∧
    Proc.new.run (pyCodec plainUni) sampleEnv "b\"\\x4\"" .none = .error (.eng .bytesSyntax) ∧
    Proc.new.run (pyCodec plainUni) sampleEnv "b'é'" .none = .error (.eng .bytesSyntax) := by
  refine ⟨?_, ?_, ?_⟩ <;> decide +kernel

end RE
