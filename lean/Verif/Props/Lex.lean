import Mathlib.Data.List.TakeDrop
import Verif.Props.Layout

/-!
# The lexer reads every layout as its tokens (C41)
-/

set_option linter.unusedSimpArgs false

namespace RE

/-! ## Characters -/

theorem isDigit_name {c : Char} (h : isDigit c = true) : isNameChar c = true := by
  simp only [isDigit, Bool.and_eq_true, decide_eq_true_eq] at h
  have h1 : c.toNat = c.val.toNat := rfl
  simp only [isNameChar, Char.isAlphanum, Char.isDigit, Bool.or_eq_true, Bool.and_eq_true,
    decide_eq_true_eq]
  refine .inl (.inr ⟨?_, ?_⟩)
  · rw [ge_iff_le, UInt32.le_iff_toNat_le]; exact h.1
  · rw [UInt32.le_iff_toNat_le]; exact h.2

theorem isNameStart_name {c : Char} (h : isNameStart c = true) : isNameChar c = true := by
  simp only [isNameStart, Bool.or_eq_true] at h
  simp only [isNameChar, Char.isAlphanum, Bool.or_eq_true]
  rcases h with h | h
  · exact .inl (.inl h)
  · exact .inr h

theorem isNameStart_of {c : Char} (h : (65 ≤ c.toNat ∧ c.toNat ≤ 90) ∨ (97 ≤ c.toNat ∧ c.toNat ≤ 122)) :
    isNameStart c = true := by
  have h1 : c.toNat = c.val.toNat := rfl
  simp only [isNameStart, Char.isAlpha, Char.isUpper, Char.isLower, Bool.or_eq_true, Bool.and_eq_true,
    decide_eq_true_eq]
  refine .inl ?_
  rcases h with h | h
  · refine .inl ⟨?_, ?_⟩
    · rw [ge_iff_le, UInt32.le_iff_toNat_le]; exact h.1
    · rw [UInt32.le_iff_toNat_le]; exact h.2
  · refine .inr ⟨?_, ?_⟩
    · rw [ge_iff_le, UInt32.le_iff_toNat_le]; exact h.1
    · rw [UInt32.le_iff_toNat_le]; exact h.2

theorem isDigitOf_name {b : Nat} {c : Char} (h : isDigitOf b c = true) : isNameChar c = true := by
  simp only [isDigitOf, digitVal] at h
  by_cases h1 : (decide (0x30 ≤ c.toNat) && decide (c.toNat ≤ 0x39)) = true
  · exact isDigit_name h1
  · rw [if_neg h1] at h
    by_cases h2 : (decide (0x61 ≤ c.toNat) && decide (c.toNat ≤ 0x66)) = true
    · simp only [Bool.and_eq_true, decide_eq_true_eq] at h2
      exact isNameStart_name (isNameStart_of (.inr ⟨h2.1, by omega⟩))
    · rw [if_neg h2] at h
      by_cases h3 : (decide (0x41 ≤ c.toNat) && decide (c.toNat ≤ 0x46)) = true
      · simp only [Bool.and_eq_true, decide_eq_true_eq] at h3
        exact isNameStart_name (isNameStart_of (.inl ⟨h3.1, by omega⟩))
      · rw [if_neg h3] at h
        cases h

/-! ## Scanners -/

theorem span_append {p : Char → Bool} : ∀ {m rest : List Char}, m.all p = true →
    headAll (fun c => !p c) rest = true → (m ++ rest).span p = (m, rest) := by
  intro m rest hm hr
  rw [List.span_eq_takeWhile_dropWhile]
  induction m with
  | nil =>
    cases rest with
    | nil => rfl
    | cons c r =>
      simp only [headAll, Bool.not_eq_true'] at hr
      simp [hr]
  | cons c m ih =>
    simp only [List.all_cons, Bool.and_eq_true] at hm
    have := ih hm.2
    simp only [Prod.mk.injEq] at this
    simp [hm.1, this.1, this.2]

theorem tw_append {p : Char → Bool} {m rest : List Char} (hm : m.all p = true)
    (hr : headAll (fun c => !p c) rest = true) : (m ++ rest).takeWhile p = m := by
  have := span_append hm hr
  rw [List.span_eq_takeWhile_dropWhile] at this
  exact (Prod.mk.inj this).1

theorem dw_append {p : Char → Bool} {m rest : List Char} (hm : m.all p = true)
    (hr : headAll (fun c => !p c) rest = true) : (m ++ rest).dropWhile p = rest := by
  have := span_append hm hr
  rw [List.span_eq_takeWhile_dropWhile] at this
  exact (Prod.mk.inj this).2

theorem span_inv {p : Char → Bool} {s m rest : List Char} (h : s.span p = (m, rest)) :
    s = m ++ rest ∧ m.all p = true ∧ headAll (fun c => !p c) rest = true := by
  rw [List.span_eq_takeWhile_dropWhile] at h
  cases h
  refine ⟨(List.takeWhile_append_dropWhile).symm, ?_, ?_⟩
  · rw [List.all_eq_true]
    intro c hc
    exact List.all_eq_true.1 (List.all_takeWhile (p := p) (l := s)) c hc
  · induction s with
    | nil => rfl
    | cons c s ih =>
      by_cases hc : p c = true
      · simpa [hc] using ih
      · simp [hc, headAll]

theorem headAll_mono {p p' : Char → Bool} (hp : ∀ c, p c = true → p' c = true) {s : List Char}
    (h : headAll p s = true) : headAll p' s = true := by
  cases s with
  | nil => rfl
  | cons c s => exact hp c h

theorem scanQuoted_nil (q : Char) : scanQuoted q [] = none := by rw [scanQuoted.eq_def]

theorem scanQuoted_end (q : Char) (r : List Char) : scanQuoted q (q :: r) = some ([q], r) := by
  rw [scanQuoted.eq_def]
  simp

theorem scanQuoted_escape {q : Char} (hq : q ≠ '\\') (d : Char) (r : List Char) :
    scanQuoted q ('\\' :: d :: r) =
      if d = '\n' then none else (scanQuoted q r).map (fun p => ('\\' :: d :: p.1, p.2)) := by
  rw [scanQuoted.eq_def]
  simp [hq.symm]

theorem scanQuoted_escape_end {q : Char} (hq : q ≠ '\\') : scanQuoted q ['\\'] = none := by
  rw [scanQuoted.eq_def]
  simp [hq.symm]

theorem scanQuoted_other {q c : Char} (hc : c ≠ q) (hb : c ≠ '\\') (r : List Char) :
    scanQuoted q (c :: r) =
      if c = '\n' then none else (scanQuoted q r).map (fun p => (c :: p.1, p.2)) := by
  rw [scanQuoted.eq_def]
  simp [hc, hb]

theorem isQuote_ne {q : Char} (hq : isQuote q = true) : q ≠ '\\' ∧ q ≠ '\n' := by
  constructor <;> (rintro rfl; revert hq; decide)

theorem quotedBody_other {q c : Char} (hb : c ≠ '\\') (r : List Char) :
    quotedBody q (c :: r) = (c != q && c != '\n' && quotedBody q r) := by
  rw [quotedBody.eq_def]
  split
  · contradiction
  · rename_i h; cases h; contradiction
  · rename_i h; cases h; contradiction
  · rename_i h; cases h; rfl

/-- what is between the quotes -/
theorem scanQuoted_body {q : Char} (hq : isQuote q = true) : ∀ (body rest : List Char),
    quotedBody q body = true → scanQuoted q (body ++ q :: rest) = some (body ++ [q], rest) := by
  have hq1 := (isQuote_ne hq).1
  intro body
  induction body using quotedBody.induct with
  | case1 => intro rest _; exact scanQuoted_end q rest
  | case2 c r ih =>
    intro rest h
    simp only [quotedBody, Bool.and_eq_true, bne_iff_ne, ne_eq] at h
    simp [scanQuoted_escape hq1, h.1, ih rest h.2]
  | case3 => intro rest h; simp [quotedBody] at h
  | case4 c r h1 h2 ih =>
    intro rest h
    have hc : c ≠ '\\' := by
      rintro rfl
      cases r with
      | nil => exact h2 rfl rfl
      | cons d r => exact h1 d r rfl rfl
    rw [quotedBody_other hc] at h
    simp only [Bool.and_eq_true, bne_iff_ne, ne_eq] at h
    simp [scanQuoted_other h.1.1 hc, h.1.2, ih rest h.2]

theorem scanQuoted_inv {q : Char} (hq : isQuote q = true) : ∀ (n : Nat) (s : List Char),
    s.length ≤ n → ∀ {m rest : List Char}, scanQuoted q s = some (m, rest) →
    ∃ body, quotedBody q body = true ∧ m = body ++ [q] ∧ s = m ++ rest := by
  have hq1 := (isQuote_ne hq).1
  intro n
  induction n with
  | zero =>
    intro s hs m rest h
    obtain rfl := List.length_eq_zero_iff.1 (Nat.le_zero.1 hs)
    rw [scanQuoted_nil] at h; cases h
  | succ n ih =>
    intro s hs m rest h
    cases s with
    | nil => rw [scanQuoted_nil] at h; cases h
    | cons c r =>
      by_cases hc : c = q
      · subst hc
        rw [scanQuoted_end] at h
        cases h
        exact ⟨[], rfl, by simp, by simp⟩
      · by_cases hb : c = '\\'
        · subst hb
          cases r with
          | nil => rw [scanQuoted_escape_end hq1] at h; cases h
          | cons d r =>
            rw [scanQuoted_escape hq1] at h
            split at h
            · cases h
            · rename_i hd
              simp only [Option.map_eq_some_iff] at h
              obtain ⟨⟨m', rest'⟩, h', he⟩ := h
              cases he
              obtain ⟨body, h1, h2, h3⟩ := ih r (by simp at hs; omega) h'
              refine ⟨'\\' :: d :: body, ?_, by simp [h2], by simp [h3]⟩
              simp [quotedBody, hd, h1]
        · rw [scanQuoted_other hc hb] at h
          split at h
          · cases h
          · rename_i hd
            simp only [Option.map_eq_some_iff] at h
            obtain ⟨⟨m', rest'⟩, h', he⟩ := h
            cases he
            obtain ⟨body, h1, h2, h3⟩ := ih r (by simp at hs; omega) h'
            refine ⟨c :: body, ?_, by simp [h2], by simp [h3]⟩
            rw [quotedBody_other hb]
            simp [hc, hd, h1]

theorem scanString_quoted {t : List Char} (h : Quoted t) (rest : List Char) :
    scanString (t ++ rest) = some (t, rest) := by
  obtain ⟨q, body, hq, hb, rfl⟩ := h
  have := scanQuoted_body hq body rest hb
  have hq' : (q == '"' || q == '\'') = true := hq
  simp [scanString, hq', this]

theorem scanString_inv {s m rest : List Char} (h : scanString s = some (m, rest)) :
    Quoted m ∧ s = m ++ rest := by
  cases s with
  | nil => cases h
  | cons c r =>
    simp only [scanString] at h
    split at h
    · rename_i hq
      simp only [Option.map_eq_some_iff] at h
      obtain ⟨⟨m', rest'⟩, h', he⟩ := h
      cases he
      obtain ⟨body, h1, h2, h3⟩ := scanQuoted_inv (q := c) hq _ _ (Nat.le_refl _) h'
      exact ⟨⟨c, body, hq, h1, by simp [h2]⟩, by simp [h3]⟩
    · cases h

theorem scanString_none {s : List Char} (h : headAll (fun c => !isQuote c) s = true) :
    scanString s = none := by
  cases s with
  | nil => rfl
  | cons c r =>
    simp only [headAll, Bool.not_eq_true', isQuote] at h
    simp [scanString, h]

/-- names -/
theorem scanSymbol_name {m rest : List Char} (h : isName m = true)
    (hr : headAll (fun c => !isNameChar c) rest = true) : scanSymbol (m ++ rest) = some (m, rest) := by
  cases m with
  | nil => cases h
  | cons c m =>
    by_cases hc : c = '$'
    · subst hc
      cases m with
      | nil => cases h
      | cons d m =>
        simp only [isName, dropDollar, Bool.and_eq_true] at h
        simp [scanSymbol, h.1, tw_append h.2 hr, dw_append h.2 hr]
    · have hd : dropDollar (c :: m) = c :: m := by
        rw [dropDollar.eq_def]
        split
        · rename_i heq; cases heq; contradiction
        · rfl
      simp only [isName, hd, Bool.and_eq_true] at h
      simp [scanSymbol, hc, h.1, tw_append h.2 hr, dw_append h.2 hr]

theorem scanSymbol_inv {s m rest : List Char} (h : scanSymbol s = some (m, rest)) :
    isName m = true ∧ s = m ++ rest ∧ headAll (fun c => !isNameChar c) rest = true := by
  cases s with
  | nil => cases h
  | cons c r =>
    by_cases hc : c = '$'
    · subst hc
      cases r with
      | nil => cases h
      | cons d r =>
        simp only [scanSymbol, beq_self_eq_true, if_true] at h
        split at h
        · rename_i hd
          obtain ⟨a, b, hs⟩ : ∃ a b, r.span isNameChar = (a, b) := ⟨_, _, rfl⟩
          rw [hs] at h
          obtain ⟨h1, h2, h3⟩ := span_inv hs
          cases h
          refine ⟨by simp only [isName, dropDollar, hd, h2, Bool.and_self], ?_, h3⟩
          simpa using h1
        · cases h
    · have hdd : ∀ m, dropDollar (c :: m) = c :: m := by
        intro m
        rw [dropDollar.eq_def]
        split
        · rename_i heq; cases heq; contradiction
        · rfl
      simp only [scanSymbol, beq_iff_eq, hc, if_false] at h
      split at h
      · rename_i hd
        obtain ⟨a, b, hs⟩ : ∃ a b, r.span isNameChar = (a, b) := ⟨_, _, rfl⟩
        rw [hs] at h
        obtain ⟨h1, h2, h3⟩ := span_inv hs
        cases h
        refine ⟨by simp only [isName, hdd, hd, h2, Bool.and_self], ?_, h3⟩
        simpa using h1
      · cases h

/-! Numbers. -/

theorem scanExponent_exp {ep rest : List Char} (h : Exponent ep)
    (hr : headAll (fun c => !isNameChar c) rest = true) : scanExponent (ep ++ rest) = (ep, rest) := by
  have hd : headAll (fun c => !isDigit c) rest = true := by
    refine headAll_mono (fun c hc => ?_) hr
    cases hc' : isDigit c with
    | false => rfl
    | true => rw [isDigit_name hc'] at hc; cases hc
  rcases h with rfl | ⟨e, sg, ds, he, hs, hn, hds, rfl⟩
  · cases rest with
    | nil => rfl
    | cons c r =>
      have hc : ¬ (c = 'e' ∨ c = 'E') := by
        rintro (rfl | rfl) <;> (revert hr; simp only [headAll]; decide)
      simp [scanExponent, hc]
  · have he' : (e == 'e' || e == 'E') = true := by rcases he with rfl | rfl <;> rfl
    obtain ⟨d, ds', rfl⟩ := List.exists_cons_of_ne_nil hn
    have hd1 : isDigit d = true := by simp only [List.all_cons, Bool.and_eq_true] at hds; exact hds.1
    have hd2 : (d == '+' || d == '-') = false := by
      rw [Bool.eq_false_iff]
      intro h
      simp only [Bool.or_eq_true, beq_iff_eq] at h
      rcases h with rfl | rfl <;> exact absurd hd1 (by decide)
    have hds2 : ds'.all isDigit = true := by
      simp only [List.all_cons, Bool.and_eq_true] at hds; exact hds.2
    have hspan : (d :: ds' ++ rest).span isDigit = (d :: ds', rest) := span_append hds hd
    rcases hs with rfl | rfl | rfl
    · simp only [List.nil_append, List.cons_append, scanExponent, he', hd2, if_true,
        Bool.false_eq_true, if_false]
      rw [List.cons_append] at hspan
      rw [hspan]
      simp
    · simp only [List.nil_append, List.cons_append, scanExponent, he', if_true, beq_self_eq_true,
        Bool.true_or]
      rw [List.cons_append] at hspan
      rw [hspan]
      simp
    · simp only [List.nil_append, List.cons_append, scanExponent, he', if_true, beq_self_eq_true,
        Bool.or_true]
      rw [List.cons_append] at hspan
      rw [hspan]
      simp

theorem scanExponent_inv {s ep rest : List Char} (h : scanExponent s = (ep, rest)) :
    Exponent ep ∧ s = ep ++ rest := by
  cases s with
  | nil => cases h; exact ⟨.inl rfl, rfl⟩
  | cons c r =>
    simp only [scanExponent] at h
    split at h
    · rename_i hc
      simp only [Bool.or_eq_true, beq_iff_eq] at hc
      cases r with
      | nil => cases h; exact ⟨.inl rfl, rfl⟩
      | cons sgn r =>
        simp only at h
        split at h
        · rename_i hs
          simp only [Bool.or_eq_true, beq_iff_eq] at hs
          obtain ⟨a, b, hsp⟩ : ∃ a b, r.span isDigit = (a, b) := ⟨_, _, rfl⟩
          rw [hsp] at h
          obtain ⟨h1, h2, h3⟩ := span_inv hsp
          simp only at h
          split at h
          · cases h; exact ⟨.inl rfl, rfl⟩
          · rename_i hne
            cases h
            refine ⟨.inr ⟨c, [sgn], a, hc, ?_, by simpa using hne, h2, rfl⟩, by simp [h1]⟩
            rcases hs with rfl | rfl
            · exact .inr (.inl rfl)
            · exact .inr (.inr rfl)
        · obtain ⟨a, b, hsp⟩ : ∃ a b, (sgn :: r).span isDigit = (a, b) := ⟨_, _, rfl⟩
          rw [hsp] at h
          obtain ⟨h1, h2, h3⟩ := span_inv hsp
          simp only at h
          split at h
          · cases h; exact ⟨.inl rfl, rfl⟩
          · rename_i hne
            cases h
            refine ⟨.inr ⟨c, [], a, hc, .inl rfl, by simpa using hne, h2, rfl⟩, by simp [h1]⟩
    · cases h; exact ⟨.inl rfl, rfl⟩

theorem scanFraction_frac {fp rest : List Char} (h : Fraction fp)
    (hr : headAll (fun c => !isDigit c && c != '.') rest = true) :
    scanFraction (fp ++ rest) = (fp, rest) := by
  rcases h with rfl | ⟨ds, hds, rfl⟩
  · cases rest with
    | nil => rfl
    | cons c r =>
      simp only [headAll, Bool.and_eq_true, bne_iff_ne] at hr
      simp [scanFraction, hr.2]
  · have hspan : (ds ++ rest).span isDigit = (ds, rest) :=
      span_append hds (headAll_mono (fun c hc => (Bool.and_eq_true _ _ ▸ hc : _ ∧ _).1) hr)
    simp only [List.cons_append, scanFraction, beq_self_eq_true, if_true]
    rw [hspan]

theorem scanFraction_inv {s fp rest : List Char} (h : scanFraction s = (fp, rest)) :
    Fraction fp ∧ s = fp ++ rest := by
  cases s with
  | nil => cases h; exact ⟨.inl rfl, rfl⟩
  | cons c r =>
    simp only [scanFraction] at h
    split at h
    · rename_i hc
      obtain ⟨a, b, hsp⟩ : ∃ a b, r.span isDigit = (a, b) := ⟨_, _, rfl⟩
      rw [hsp] at h
      obtain ⟨h1, h2, h3⟩ := span_inv hsp
      cases h
      simp only [beq_iff_eq] at hc
      subst hc
      exact ⟨.inr ⟨a, h2, rfl⟩, by simp [h1]⟩
    · cases h; exact ⟨.inl rfl, rfl⟩

theorem headAll_append {p : Char → Bool} {a b : List Char} (ha : headAll p a = true)
    (hb : headAll p b = true) : headAll p (a ++ b) = true := by
  cases a with
  | nil => exact hb
  | cons c a => exact ha

theorem headAll_of_all {p : Char → Bool} {a : List Char} (ha : a.all p = true) : headAll p a = true := by
  cases a with
  | nil => rfl
  | cons c a => simp only [List.all_cons, Bool.and_eq_true] at ha; exact ha.1

theorem exponent_head {p : Char → Bool} (he : p 'e' = true) (hE : p 'E' = true) {ep : List Char}
    (h : Exponent ep) : headAll p ep = true := by
  rcases h with rfl | ⟨e, sg, ds, rfl | rfl, _, _, _, rfl⟩
  · rfl
  · exact he
  · exact hE

theorem fraction_head {p : Char → Bool} (hp : p '.' = true) {fp : List Char} (h : Fraction fp) :
    headAll p fp = true := by
  rcases h with rfl | ⟨ds, _, rfl⟩
  · rfl
  · exact hp

theorem prefix_name {c : Char} {b : Nat} (h : prefixBase c = some b) : c = 'b' ∨ c = 'o' ∨ c = 'x' := by
  simp only [prefixBase] at h
  split at h
  · rename_i hc; exact .inl (by simpa using hc)
  · split at h
    · rename_i hc; exact .inr (.inl (by simpa using hc))
    · split at h
      · rename_i hc; exact .inr (.inr (by simpa using hc))
      · cases h

theorem noPrefix_digit {c : Char} (h : isDigit c = true) : (prefixBase c).isNone = true := by
  cases hp : prefixBase c with
  | none => rfl
  | some b =>
    rcases prefix_name hp with rfl | rfl | rfl <;> exact absurd h (by decide)

theorem noPrefix_other {c : Char} (h : isNameChar c = false) : (prefixBase c).isNone = true := by
  cases hp : prefixBase c with
  | none => rfl
  | some b =>
    rcases prefix_name hp with rfl | rfl | rfl <;> exact absurd h (by decide)

theorem scanPrefixed_none {c : Char} {r : List Char} (h : c = '0' → headAll (fun c => (prefixBase c).isNone) r = true) :
    scanPrefixed (c :: r) = none := by
  cases r with
  | nil => rfl
  | cons d r =>
    simp only [scanPrefixed]
    split
    · rename_i hc
      have := h (by simpa using hc)
      simp only [headAll, Option.isNone_iff_eq_none] at this
      simp [this]
    · rfl

theorem scanFloat_inv {s m rest : List Char} (h : scanFloat s = some (m, rest)) :
    Number m ∧ s = m ++ rest := by
  simp only [scanFloat] at h
  split at h
  · rename_i p hp
    cases h
    match s with
    | [] => cases hp
    | [_] => cases hp
    | z :: c :: r =>
      simp only [scanPrefixed] at hp
      split at hp
      · rename_i hz
        simp only [beq_iff_eq] at hz
        subst hz
        split at hp
        · rename_i b hb
          obtain ⟨ds, rs, hsp⟩ : ∃ a b', r.span (isDigitOf b) = (a, b') := ⟨_, _, rfl⟩
          rw [hsp] at hp
          obtain ⟨h1, h2, h3⟩ := span_inv hsp
          simp only at hp
          split at hp
          · cases hp
          · rename_i hne
            cases hp
            exact ⟨.inl ⟨c, b, ds, hb, by simpa using hne, h2, rfl⟩, by simp [h1]⟩
        · cases hp
      · cases hp
  · split at h
    · rename_i p hp
      cases h
      obtain ⟨ip, r1, hsp⟩ : ∃ a b, s.span isDigit = (a, b) := ⟨_, _, rfl⟩
      obtain ⟨fp, r2, hf⟩ : ∃ a b, scanFraction r1 = (a, b) := ⟨_, _, rfl⟩
      obtain ⟨ep, r3, he⟩ : ∃ a b, scanExponent r2 = (a, b) := ⟨_, _, rfl⟩
      simp only [scanDecimal] at hp
      rw [hsp] at hp
      simp only [hf, he] at hp
      split at hp
      · cases hp
      · rename_i hne
        cases hp
        obtain ⟨h1, h2, h3⟩ := span_inv hsp
        obtain ⟨g1, g2⟩ := scanFraction_inv hf
        obtain ⟨e1, e2⟩ := scanExponent_inv he
        refine ⟨.inr (.inl ⟨ip, fp, ep, by simpa using hne, h2, g1, e1, rfl⟩), ?_⟩
        rw [h1, g2, e2]
        simp
    · cases s with
      | nil => cases h
      | cons c r =>
        simp only [scanPointed] at h
        split at h
        · rename_i hc
          simp only [beq_iff_eq] at hc
          subst hc
          obtain ⟨fp, r2, hsp⟩ : ∃ a b, r.span isDigit = (a, b) := ⟨_, _, rfl⟩
          obtain ⟨ep, r3, he⟩ : ∃ a b, scanExponent r2 = (a, b) := ⟨_, _, rfl⟩
          rw [hsp] at h
          simp only [he] at h
          split at h
          · cases h
          · rename_i hne
            cases h
            obtain ⟨h1, h2, h3⟩ := span_inv hsp
            obtain ⟨e1, e2⟩ := scanExponent_inv he
            refine ⟨.inr (.inr ⟨fp, ep, by simpa using hne, h2, e1, rfl⟩), ?_⟩
            rw [h1, e2]
            simp
        · cases h

/-! ### A scan takes the longest number -/

theorem span_max {p : Char → Bool} {t r a b : List Char} (ht : t.all p = true)
    (h : (t ++ r).span p = (a, b)) : ∃ u, a = t ++ u := by
  induction t generalizing a b with
  | nil => exact ⟨a, rfl⟩
  | cons c t ih =>
    simp only [List.all_cons, Bool.and_eq_true] at ht
    obtain ⟨a', b', h'⟩ : ∃ a' b', (t ++ r).span p = (a', b') := ⟨_, _, rfl⟩
    obtain ⟨u, rfl⟩ := ih ht.2 h'
    have : ((c :: t) ++ r).span p = (c :: (t ++ u), b') := by
      have h1 := h'
      simp only [List.span_eq_takeWhile_dropWhile, Prod.mk.injEq] at h1
      simp [List.span_eq_takeWhile_dropWhile, List.takeWhile_cons, List.dropWhile_cons, ht.1, h1.1, h1.2]
    rw [this] at h
    cases h
    exact ⟨u, rfl⟩

theorem scanExponent_max {t r a b : List Char} (ht : Exponent t) (h : scanExponent (t ++ r) = (a, b)) :
    t.length ≤ a.length := by
  rcases ht with rfl | ⟨e, sg, ds, he, hs, hne, hd, rfl⟩
  · simp
  have he' : (e == 'e' || e == 'E') = true := by simpa using he
  obtain ⟨x, y, hsp⟩ : ∃ x y, (ds ++ r).span isDigit = (x, y) := ⟨_, _, rfl⟩
  obtain ⟨u, rfl⟩ := span_max hd hsp
  obtain ⟨d, ds', rfl⟩ := List.exists_cons_of_ne_nil hne
  have hds : (d == '+' || d == '-') = false := by
    rcases hq : (d == '+' || d == '-') with _ | _
    · rfl
    · simp only [Bool.or_eq_true, beq_iff_eq] at hq
      simp only [List.all_cons, Bool.and_eq_true] at hd
      rcases hq with rfl | rfl <;> exact absurd hd.1 (by decide)
  rcases hs with rfl | rfl | rfl
  · simp only [List.nil_append, List.cons_append, scanExponent, he', if_true, hds, Bool.false_eq_true,
      if_false] at h hsp ⊢
    rw [hsp] at h
    simp at h
    rw [← h.1]
    simp
  · simp only [List.cons_append, List.nil_append, scanExponent, he', if_true, beq_self_eq_true, Bool.true_or] at h hsp ⊢
    rw [hsp] at h
    simp at h
    rw [← h.1]
    simp
  · simp only [List.cons_append, List.nil_append, scanExponent, he', if_true, beq_self_eq_true, Bool.or_true] at h hsp ⊢
    rw [hsp] at h
    simp at h
    rw [← h.1]
    simp

theorem exponent_cons {t : List Char} (h : Exponent t) (hne : t ≠ []) :
    ∃ c r, t = c :: r ∧ (c = 'e' ∨ c = 'E') := by
  rcases h with rfl | ⟨e, sg, ds, he, hs, _, hd, rfl⟩
  · exact absurd rfl hne
  · exact ⟨e, _, rfl, he⟩

theorem scanFloat_max {t r : List Char} (h : Number t) :
    ∃ m rest, scanFloat (t ++ r) = some (m, rest) ∧ t.length ≤ m.length := by
  rcases h with ⟨c, base, ds, hb, hne, hds, rfl⟩ | ⟨ip, fp, ep, hne, hip, hfp, hep, rfl⟩ |
    ⟨fp, ep, hne, hfp, hep, rfl⟩
  · obtain ⟨x, y, hsp⟩ : ∃ x y, (ds ++ r).span (isDigitOf base) = (x, y) := ⟨_, _, rfl⟩
    obtain ⟨u, rfl⟩ := span_max hds hsp
    have : scanPrefixed ('0' :: c :: ds ++ r) = some ('0' :: c :: (ds ++ u), y) := by
      simp only [List.cons_append, scanPrefixed, beq_self_eq_true, if_true, hb]
      rw [hsp]
      simp [hne]
    simp only [scanFloat, this]
    exact ⟨_, _, rfl, by simp⟩
  · obtain ⟨z, ip', rfl⟩ := List.exists_cons_of_ne_nil hne
    simp only [scanFloat]
    cases hp : scanPrefixed ((z :: ip') ++ fp ++ ep ++ r) with
    | some p =>
      refine ⟨_, _, rfl, ?_⟩
      -- the number is then a single zero
      have hone : ip' = [] ∧ fp = [] ∧ ep = [] := by
        have hcase : ∀ c rr, ip' ++ fp ++ ep ++ r = c :: rr → (prefixBase c).isSome = true →
            ip' = [] ∧ fp = [] ∧ ep = [] := by
          intro c rr he hc
          have hcc : c = 'b' ∨ c = 'o' ∨ c = 'x' := by
            obtain ⟨b, hb⟩ := Option.isSome_iff_exists.1 hc
            exact prefix_name hb
          have hi : ip' = [] := by
            cases ip' with
            | nil => rfl
            | cons d ip' =>
              simp only [List.cons_append, List.cons.injEq] at he
              simp only [List.all_cons, Bool.and_eq_true] at hip
              have := noPrefix_digit hip.2.1
              rw [he.1] at this
              cases hx : prefixBase c <;> simp_all
          subst hi
          have hf : fp = [] := by
            rcases hfp with rfl | ⟨ds, _, rfl⟩
            · rfl
            · simp only [List.nil_append, List.cons_append, List.cons.injEq] at he
              rcases hcc with rfl | rfl | rfl <;> exact absurd he.1 (by decide)
          subst hf
          refine ⟨rfl, rfl, ?_⟩
          by_cases hq : ep = []
          · exact hq
          · obtain ⟨e, er, rfl, he2⟩ := exponent_cons hep hq
            simp only [List.nil_append, List.cons_append, List.cons.injEq] at he
            rw [he.1] at he2
            rcases hcc with rfl | rfl | rfl <;> exact absurd he2 (by decide)
        have e1 : (z :: ip') ++ fp ++ ep ++ r = z :: (ip' ++ fp ++ ep ++ r) := by simp
        rw [e1] at hp
        cases hr : ip' ++ fp ++ ep ++ r with
        | nil => rw [hr] at hp; cases hp
        | cons c rr =>
          refine hcase c rr hr ?_
          rw [hr] at hp
          simp only [scanPrefixed] at hp
          split at hp
          · split at hp
            · rename_i b hb; simp [hb]
            · cases hp
          · cases hp
      obtain ⟨rfl, rfl, rfl⟩ := hone
      have := (scanFloat_inv (s := [z] ++ [] ++ [] ++ r) (m := p.1) (rest := p.2) (by simp only [scanFloat, hp])).1
      have hpos : 0 < p.1.length := by
        rcases this with ⟨c, base, ds, _, _, _, h⟩ | ⟨ip, fp, ep, hne, _, _, _, h⟩ | ⟨fp, ep, _, _, _, h⟩
        · rw [h]; simp
        · rw [h]
          have := List.length_pos_iff.2 hne
          simp
          omega
        · rw [h]; simp
      simpa [Nat.succ_le_iff] using hpos
    | none =>
      have e2 : (z :: ip') ++ fp ++ ep ++ r = (z :: ip') ++ (fp ++ (ep ++ r)) := by simp
      obtain ⟨x, y, hsp⟩ : ∃ x y, ((z :: ip') ++ (fp ++ (ep ++ r))).span isDigit = (x, y) := ⟨_, _, rfl⟩
      obtain ⟨u, rfl⟩ := span_max hip hsp
      obtain ⟨fa, r2, hf⟩ : ∃ a b, scanFraction y = (a, b) := ⟨_, _, rfl⟩
      obtain ⟨ea, r3, he⟩ : ∃ a b, scanExponent r2 = (a, b) := ⟨_, _, rfl⟩
      have hd : scanDecimal ((z :: ip') ++ fp ++ ep ++ r) = some ((z :: ip') ++ u ++ fa ++ ea, r3) := by
        simp only [scanDecimal]
        rw [e2, hsp]
        simp only [hf, he]
        simp
      simp only [hd]
      refine ⟨_, _, rfl, ?_⟩
      -- the digits end where the fraction or the exponent starts
      have hexact : ∀ c rr, fp ++ (ep ++ r) = c :: rr → isDigit c = false →
          u = [] ∧ y = fp ++ (ep ++ r) := by
        intro c rr hc hcd
        have := span_append (p := isDigit) hip (rest := fp ++ (ep ++ r)) (by rw [hc]; simp [headAll, hcd])
        rw [hsp] at this
        simpa using this
      rcases hfp with rfl | ⟨ds, hds, rfl⟩
      · by_cases hq : ep = []
        · subst hq; simp
        · obtain ⟨e, er, hee, hec⟩ := exponent_cons hep hq
          obtain ⟨rfl, rfl⟩ := hexact e (er ++ r) (by simp [hee])
            (by rcases hec with rfl | rfl <;> decide)
          have : scanFraction ([] ++ (ep ++ r)) = ([], ep ++ r) := by
            have hne : (e == '.') = false := by rcases hec with rfl | rfl <;> decide
            simp [hee, scanFraction, hne]
          rw [this] at hf
          cases hf
          have := scanExponent_max hep he
          simp
          omega
      · obtain ⟨rfl, rfl⟩ := hexact '.' (ds ++ (ep ++ r)) (by simp) (by decide)
        obtain ⟨w, v, hw⟩ : ∃ w v, (ds ++ (ep ++ r)).span isDigit = (w, v) := ⟨_, _, rfl⟩
        obtain ⟨u2, rfl⟩ := span_max hds hw
        have hfr : scanFraction ('.' :: ds ++ (ep ++ r)) = ('.' :: (ds ++ u2), v) := by
          simp only [List.cons_append, scanFraction, beq_self_eq_true, if_true]
          rw [hw]
        rw [hfr] at hf
        cases hf
        by_cases hq : ep = []
        · subst hq; simp
        · obtain ⟨e, er, hee, hec⟩ := exponent_cons hep hq
          have := span_append (p := isDigit) hds (rest := ep ++ r) (by
            rw [hee]
            rcases hec with rfl | rfl <;> rfl)
          rw [hw] at this
          simp only [Prod.mk.injEq, List.append_right_eq_self] at this
          obtain ⟨rfl, rfl⟩ := this
          have := scanExponent_max hep he
          simp
          omega
  · obtain ⟨d, fp', rfl⟩ := List.exists_cons_of_ne_nil hne
    have e1 : '.' :: (d :: fp') ++ ep ++ r = '.' :: ((d :: fp') ++ (ep ++ r)) := by simp
    have hp : scanPrefixed ('.' :: (d :: fp') ++ ep ++ r) = none := by
      rw [e1]
      exact scanPrefixed_none (fun h => absurd h (by decide))
    have hd : scanDecimal ('.' :: (d :: fp') ++ ep ++ r) = none := by
      rw [e1]
      have : ('.' :: ((d :: fp') ++ (ep ++ r))).span isDigit =
          ([], '.' :: ((d :: fp') ++ (ep ++ r))) :=
        span_append (m := []) rfl (by show (!isDigit '.') = true; decide)
      simp only [scanDecimal]
      rw [this]
      rfl
    obtain ⟨w, v, hw⟩ : ∃ w v, ((d :: fp') ++ (ep ++ r)).span isDigit = (w, v) := ⟨_, _, rfl⟩
    obtain ⟨u2, rfl⟩ := span_max hfp hw
    obtain ⟨ea, r3, he⟩ : ∃ a b, scanExponent v = (a, b) := ⟨_, _, rfl⟩
    have hs : scanPointed ('.' :: (d :: fp') ++ ep ++ r) = some ('.' :: ((d :: fp') ++ u2) ++ ea, r3) := by
      rw [e1]
      simp only [scanPointed, beq_self_eq_true, if_true]
      rw [hw]
      simp [he]
    simp only [scanFloat, hp, hd, hs]
    refine ⟨_, _, rfl, ?_⟩
    by_cases hq : ep = []
    · subst hq; simp
    · obtain ⟨e, er, hee, hec⟩ := exponent_cons hep hq
      have := span_append (p := isDigit) hfp (rest := ep ++ r) (by
        rw [hee]
        rcases hec with rfl | rfl <;> rfl)
      rw [hw] at this
      simp only [Prod.mk.injEq, List.append_right_eq_self] at this
      obtain ⟨rfl, rfl⟩ := this
      have := scanExponent_max hep he
      simp
      omega

/-- A scan that finds a number finds all of it. -/
theorem scanFloat_whole {s m rest : List Char} (h : scanFloat s = some (m, rest)) : wholeNumber m rest := by
  intro p r hr hn
  obtain ⟨_, rfl⟩ := scanFloat_inv h
  obtain ⟨m', rest', hs, hl⟩ := scanFloat_max (r := r) hn
  rw [hr, ← List.append_assoc, hs] at h
  cases h
  simp only [List.length_append] at hl
  exact List.length_eq_zero_iff.1 (by omega)

theorem scanFloat_number {t rest : List Char} (h : Number t) (hr : wholeNumber t rest) :
    scanFloat (t ++ rest) = some (t, rest) := by
  obtain ⟨m, rest', hs, hl⟩ := scanFloat_max (r := rest) h
  obtain ⟨hn, he⟩ := scanFloat_inv hs
  obtain ⟨p, rfl⟩ : ∃ p, m = t ++ p := by
    have : t = m.take t.length := by
      have := congrArg (List.take t.length) he
      rwa [List.take_left, List.take_append_of_le_length hl] at this
    exact ⟨m.drop t.length, by
      conv => lhs; rw [← List.take_append_drop t.length m, ← this]⟩
  rw [List.append_assoc, List.append_cancel_left_eq] at he
  have := hr p rest' he hn
  subst this
  simpa [he] using hs

end RE
