import Verif.Props.Numbers
import Verif.Props.BuiltinFns

/-!
# Numbers and literals as texts: `to_str`, `$parse_float`, `$parse_timedelta`, `$parse_datetime` (C54)
-/

set_option linter.unusedSimpArgs false

namespace RE

/-! ### Decimal digits of a natural number -/

theorem natDigits_step (n : Nat) (h : 10 ≤ n) : natDigits n = natDigits (n / 10) ++ natDigits (n % 10) := by
  unfold natDigits
  rw [Nat.toDigits_append_toDigits (by norm_num) (by omega) (Nat.mod_lt _ (by norm_num))]
  congr 1
  omega

theorem natDigits_small (n : Nat) (h : n < 10) : natDigits n = [lowerDigits[n]!] := by
  unfold natDigits
  rw [Nat.toDigits_of_lt_base h]
  interval_cases n <;> rfl

theorem digitsNum_single (n : Nat) (h : n < 10) : digitsNum 10 [lowerDigits[n]!] = n := by
  interval_cases n <;> rfl

theorem natDigits_spec (n : Nat) : IsDigits 10 (natDigits n) ∧ digitsNum 10 (natDigits n) = n ∧
    ∃ c cs, natDigits n = c :: cs ∧ (c = '0' → n = 0 ∧ cs = []) := by
  induction n using Nat.strong_induction_on with
  | _ n ih =>
    by_cases h : n < 10
    · rw [natDigits_small n h, digitsNum_single n h]
      refine ⟨?_, rfl, _, _, rfl, ?_⟩
      · intro c hc
        rw [List.mem_singleton] at hc
        exact ⟨n, h, .inl hc⟩
      · intro hc
        refine ⟨?_, rfl⟩
        interval_cases n <;> first | rfl | exact absurd hc (by decide)
    · obtain ⟨h1, h2, c, cs, h3, h4⟩ := ih (n / 10) (by omega)
      have hm : n % 10 < 10 := Nat.mod_lt _ (by norm_num)
      rw [natDigits_step n (by omega), natDigits_small _ hm]
      refine ⟨?_, ?_, c, cs ++ [lowerDigits[n % 10]!], by rw [h3]; rfl, ?_⟩
      · intro x hx
        rcases List.mem_append.1 hx with hx | hx
        · exact h1 x hx
        · rw [List.mem_singleton] at hx
          exact ⟨n % 10, hm, .inl hx⟩
      · rw [digitsNum_append, h2, digitsNum_single _ hm]
        simp only [List.length_singleton, pow_one]
        omega
      · intro hc
        have := (h4 hc).1
        omega

theorem digitsNum_zeros (n : Nat) (ds : List Char) : digitsNum 10 (List.replicate n '0' ++ ds) = digitsNum 10 ds := by
  rw [digitsNum_append]
  have : digitsNum 10 (List.replicate n '0') = 0 := by
    induction n with
    | zero => rfl
    | succ n ih =>
      rw [List.replicate_succ, show ('0' :: List.replicate n '0') = ['0'] ++ List.replicate n '0' from rfl,
        digitsNum_append, ih, show digitsNum 10 ['0'] = 0 from rfl, zero_mul]
  rw [this]
  simp

/-! ### The text of a number -/

/-- the text of a number that is not negative -/
def numText (k : Nat) (e : Int) : List Char := (decToString false k e).toList

theorem decToString_neg (neg : Bool) (k : Nat) (e : Int) :
    decToString neg k e = String.ofList ((if neg then ['-'] else []) ++ numText k e) := by
  simp only [numText, decToString, String.toList_ofList, List.append_assoc, Bool.false_eq_true, if_false,
    List.nil_append]

/-- the text of a number is a decimal number that spells its digits and exponent -/
theorem numText_decimal (k : Nat) (e : Int) :
    ∃ ip fp x, IsDecimal (numText k e) ip fp x ∧ digitsNum 10 (ip ++ fp) = k ∧ x - fp.length = e ∧
      ¬ LeadingZero (numText k e) := by
  obtain ⟨hd, hn, c, cs, hc, hz⟩ := natDigits_spec k
  have hx : ∀ z : Int, z ≠ 0 →
      IsExponent ('E' :: (if z < 0 then '-' else '+') :: natDigits z.natAbs) z := by
    intro z hz
    obtain ⟨hd', hn', c', cs', hc', -⟩ := natDigits_spec z.natAbs
    have hne : natDigits z.natAbs ≠ [] := by rw [hc']; simp
    split
    · have := IsExponent.minus 'E' (natDigits z.natAbs) (.inr rfl) hne hd'
      rwa [hn', show -(z.natAbs : Int) = z by omega] at this
    · have := IsExponent.plus 'E' (natDigits z.natAbs) (.inr rfl) hne hd'
      rwa [hn', show (z.natAbs : Int) = z by omega] at this
  have hlen : 1 ≤ (natDigits k).length := by rw [hc]; simp
  unfold numText decToString
  simp only [String.toList_ofList, Bool.false_eq_true, if_false, List.nil_append]
  generalize hL : (e + (natDigits k).length : Int) = left
  generalize hD : (if e ≤ 0 ∧ -6 < left then left else 1 : Int) = dot
  have hD' : e ≤ 0 ∧ -6 < left ∧ dot = left ∨ dot = 1 := by
    rw [← hD]; split
    · rename_i h; exact .inl ⟨h.1, h.2, rfl⟩
    · exact .inr rfl
  -- the exponent
  have hex : ∃ ex, (if left = dot then [] else
      'E' :: (if left - dot < 0 then '-' else '+') :: natDigits (left - dot).natAbs) = ex ∧
      IsExponent ex (left - dot) := by
    by_cases h : left = dot
    · refine ⟨[], by simp [h], ?_⟩
      rw [show left - dot = 0 by omega]
      exact .absent
    · exact ⟨_, by rw [if_neg h], hx _ (by omega)⟩
  obtain ⟨ex, hex1, hex2⟩ := hex
  rw [hex1]
  have hexh : ∀ c cs, ex = c :: cs → ¬ IsDigits 10 [c] := by
    intro c cs h hcd
    have h1 := (isExponent_head hex2 c (by rw [h]; rfl)).1
    have h2 := (isDigits_iff [c]).1 hcd c (by simp)
    rw [h1] at h2
    cases h2
  have hdot : ¬ IsDigits 10 ['.'] := by
    intro h
    have := (isDigits_iff ['.']).1 h '.' (by simp)
    exact absurd this (by decide)
  by_cases h0 : dot ≤ 0
  · simp only [h0, if_true]
    have hdl : dot = left := by omega
    have he : e ≤ 0 := by omega
    refine ⟨['0'], List.replicate (-dot).toNat '0' ++ natDigits k, left - dot, ⟨?_, ?_, .inl (by simp), _, ex, by simp, hex2, .inl rfl⟩, ?_, ?_, ?_⟩
    · intro c hc
      rw [List.mem_singleton] at hc
      exact ⟨0, by norm_num, .inl hc⟩
    · intro c hc
      rcases List.mem_append.1 hc with hc | hc
      · exact ⟨0, by norm_num, .inl (List.eq_of_mem_replicate hc)⟩
      · exact hd c hc
    · rw [show ['0'] ++ (List.replicate (-dot).toNat '0' ++ natDigits k) =
        List.replicate ((-dot).toNat + 1) '0' ++ natDigits k by rw [List.replicate_succ]; rfl, digitsNum_zeros, hn]
    · simp only [List.length_append, List.length_replicate]
      push_cast
      omega
    · rintro ⟨x, rest, hr, hxd⟩
      simp only [List.cons_append, List.nil_append, List.cons.injEq, true_and] at hr
      rw [← hr.1] at hxd
      exact hdot hxd
  · simp only [h0, if_false]
    by_cases h1 : ((natDigits k).length : Int) ≤ dot
    · simp only [h1, if_true]
      have hrep : (dot - ((natDigits k).length : Int)).toNat = 0 := by omega
      rw [hrep, List.replicate_zero, List.append_nil]
      refine ⟨natDigits k, [], left - dot, ⟨hd, fun c hc => (by cases hc), .inl (by rw [hc]; simp), [], ex, by simp, hex2, .inr ⟨rfl, rfl⟩⟩, ?_, ?_, ?_⟩
      · rw [List.append_nil, hn]
      · simp only [List.length_nil]
        omega
      · rintro ⟨x, rest, hr, hxd⟩
        rw [hc] at hr
        simp only [List.cons_append, List.append_nil, List.cons.injEq] at hr
        obtain ⟨rfl, hr⟩ := hr
        obtain ⟨-, rfl⟩ := hz rfl
        exact hexh x rest (by simpa using hr) hxd
    · simp only [h1, if_false]
      have hlt : dot.toNat < (natDigits k).length := by omega
      refine ⟨(natDigits k).take dot.toNat, (natDigits k).drop dot.toNat, left - dot,
        ⟨fun c hc => hd c (List.mem_of_mem_take hc), fun c hc => hd c (List.mem_of_mem_drop hc), .inr ?_, _, ex, by simp, hex2, .inl rfl⟩, ?_, ?_, ?_⟩
      · rw [ne_eq, List.drop_eq_nil_iff]; omega
      · rw [List.take_append_drop, hn]
      · rw [List.length_drop]
        push_cast [Nat.cast_sub hlt.le]
        omega
      · rintro ⟨x, rest, hr, hxd⟩
        obtain ⟨m, hm⟩ : ∃ m, dot.toNat = m + 1 := ⟨dot.toNat - 1, by omega⟩
        rw [hc, hm, List.take_succ_cons] at hr
        simp only [List.cons_append, List.append_assoc, List.cons.injEq] at hr
        obtain ⟨rfl, -⟩ := hr
        obtain ⟨-, rfl⟩ := hz rfl
        rw [hc] at hlt
        simp only [List.length_singleton] at hlt
        omega

/-- Specification: the numbers a Decimal can represent at all (their digits lie between about 10^±10^18), the
infinities and NaN: every number that can occur. -/
def Dec.Representable : Dec → Prop
  | .fin _ k e => decRepresentable k e = true
  | _ => True

/-- Specification: `x.to_str` is the text `s`. -/
def ToStr (env : Env) (dc : DecCtx) (d : Dec) (s : String) : Prop := attrResult env dc (.dec d) "to_str" = .ok (.str s)

theorem toStr_eq (env : Env) (dc : DecCtx) (d : Dec) : ToStr env dc d (match d with
    | .fin n k e => decToString n k e
    | .inf true => "-inf"
    | .inf false => "inf"
    | .nan => "nan") := by
  unfold ToStr
  cases d with
  | fin n k e => exact attr_of_resolve env dc _ (.str (decToString n k e)) _ rfl
  | inf b => cases b <;> exact attr_of_resolve env dc _ (.str _) _ rfl
  | nan => exact attr_of_resolve env dc _ (.str "nan") _ rfl

/-- **C54.** `$parse_float(s)` is the number that the literal `s` denotes; if `s` is no number literal it raises
FunctionCallError. -/
theorem parse_float_literal (env : Env) (dc : DecCtx) (s : String) :
    builtinResult env dc "parse_float" [.str s] = match floatLiteral env s.toList with
      | .ok v => .ok v
      | .error _ => .error (.eng .functionCall) := by
  rw [builtin_simple env dc "parse_float" .parseFloat _ rfl rfl rfl, floatLiteral_eq]
  simp only [callBuiltin]
  rcases parseFloat s.toList with e | d
  · rfl
  · exact checkedResult_dec env d

/-- **C54.** `$parse_timedelta(s)` is the duration of the literal `t"s"`; if that is malformed or out of range it
raises FunctionCallError. -/
theorem parse_timedelta_literal (env : Env) (dc : DecCtx) (s : String) :
    builtinResult env dc "parse_timedelta" [.str s] = match timedeltaLiteral env s.toList with
      | .ok v => .ok v
      | .error _ => .error (.eng .functionCall) := by
  rw [builtin_simple env dc "parse_timedelta" .parseTimedelta _ rfl rfl rfl, timedeltaLiteral_eq]
  simp only [callBuiltin]
  rcases parseTimedelta s.toList with e | d <;> rfl

/-- Specification: what `Rule('d"text"').evaluate(thing)` gives. -/
def datetimeLiteral (env : Env) (text : String) : Except Err Value := runRaw env (.datetimeLit text) .none

/-- **C54.** `$parse_datetime(s)` is the datetime of the literal `d"s"` (so both take the default time zone of the
context where the text names none); if that is malformed it raises FunctionCallError. -/
theorem parse_datetime_literal (env : Env) (dc : DecCtx) (s : String) :
    builtinResult env dc "parse_datetime" [.str s] = match datetimeLiteral env s with
      | .ok v => .ok v
      | .error _ => .error (.eng .functionCall) := by
  rw [builtin_simple env dc "parse_datetime" .parseDatetime _ rfl rfl rfl]
  unfold datetimeLiteral runRaw construct
  simp only [callBuiltin, build, parseDatetime]
  rcases env.isoparse s with _ | ⟨us, _ | tz⟩ <;> rfl

/-- the text of a number as literal -/
theorem literal_numText (env : Env) (k : Nat) (e : Int) (h : decRepresentable k e = true) :
    floatLiteral env (numText k e) = .ok (.dec (.fin false k e)) := by
  obtain ⟨ip, fp, x, hdec, hk, hx, hz⟩ := numText_decimal k e
  rw [floatLiteral_eq, parseFloat_decimal hdec hz, decimalOfString_decimal hdec, hk, hx, if_pos h]
  rfl

/-- **C54.** A number survives being turned into text and back: `$parse_float(x.to_str)` is `x`, with the same sign,
digits and exponent. -/
theorem to_str_parse_float (env : Env) (dc : DecCtx) (d : Dec) (hd : d.Representable) :
    ∃ s, ToStr env dc d s ∧ builtinResult env dc "parse_float" [.str s] = .ok (.dec d) := by
  refine ⟨_, toStr_eq env dc d, ?_⟩
  rw [parse_float_literal]
  cases d with
  | nan => rfl
  | inf b => cases b <;> rfl
  | fin n k e =>
    simp only [decToString_neg, String.toList_ofList]
    cases n with
    | false =>
      simp only [Bool.false_eq_true, if_false, List.nil_append, literal_numText env k e hd]
    | true =>
      obtain ⟨ip, fp, x, hdec, hk, hx, hz⟩ := numText_decimal k e
      have := decimalOfString_signed true hdec
      rw [hk, hx, if_pos (show decRepresentable k e = true from hd)] at this
      rw [floatLiteral_eq]
      have h0 : parseFloat ('-' :: numText k e) = match decimalOfString ('-' :: numText k e) with
          | some d => .ok d
          | none => .error (.eng .floatSyntax) := by
        generalize numText k e = t
        unfold parseFloat
        split
        · rename_i heq
          exact absurd (List.cons.inj heq).1 (by decide)
        · rfl
      simp only [if_true, List.cons_append, List.nil_append] at this ⊢
      rw [h0, this]
      rfl

/-- **C54.** Different numbers (different in value or in written form) have different texts. -/
theorem to_str_injective (env : Env) (dc : DecCtx) (d d' : Dec) (hd : d.Representable) (hd' : d'.Representable)
    (s : String) (h : ToStr env dc d s) (h' : ToStr env dc d' s) : d = d' := by
  obtain ⟨t, h1, h2⟩ := to_str_parse_float env dc d hd
  obtain ⟨t', h1', h2'⟩ := to_str_parse_float env dc d' hd'
  unfold ToStr at *
  rw [h] at h1
  rw [h'] at h1'
  cases h1
  cases h1'
  rw [h2] at h2'
  cases h2'
  rfl

/-- the literals `inf` and `nan` -/
theorem run_inf_nan (codec : LitCodec) (env : Env) (p : Proc) (thing : Value) :
    p.run codec env "inf" thing = .ok (.dec (.inf false)) ∧ p.run codec env "nan" thing = .ok (.dec .nan) := by
  have h1 := fun line => parse_single codec line .inf rfl ⟨.FLOAT_INF, "inf".toList⟩ rfl "inf".toList [] []
    ⟨rfl, rfl⟩ (fun _ => ⟨rfl, fun h => by cases h⟩) rfl (by simp) (by simp)
  have h2 := fun line => parse_single codec line .nan rfl ⟨.FLOAT_NAN, "nan".toList⟩ rfl "nan".toList [] []
    ⟨rfl, rfl⟩ (fun _ => ⟨rfl, fun h => by cases h⟩) rfl (by simp) (by simp)
  simp only [List.nil_append, List.append_nil, String.ofList_toList] at h1 h2
  constructor
  · simp only [Proc.run, Proc.rule, parseRule, h1, Syn.raw]; rfl
  · simp only [Proc.run, Proc.rule, parseRule, h2, Syn.raw]; rfl

/-- **C54.** The text of a number that is not negative, taken as a rule, evaluates to that number. -/
theorem to_str_rule (codec : LitCodec) (env : Env) (dc : DecCtx) (p : Proc) (thing : Value) (d : Dec)
    (hd : d.Representable) (hn : ∀ k e, d ≠ .fin true k e) (hi : d ≠ .inf true) :
    ∃ s, ToStr env dc d s ∧ p.run codec env s thing = .ok (.dec d) := by
  refine ⟨_, toStr_eq env dc d, ?_⟩
  cases d with
  | nan => exact (run_inf_nan codec env p thing).2
  | inf b =>
    cases b with
    | true => exact absurd rfl hi
    | false => exact (run_inf_nan codec env p thing).1
  | fin n k e =>
    cases n with
    | true => exact absurd rfl (hn k e)
    | false =>
      obtain ⟨ip, fp, x, hdec, -⟩ := numText_decimal k e
      have := run_number codec env p thing (numText k e) [] [] (number_of_decimal hdec) (by simp) (by simp)
      rw [literal_numText env k e hd] at this
      simpa [numText] using this

theorem digits_parts {text ip fp : List Char} {e : Int} (h : IsDecimal text ip fp e) (hall : IsDigits 10 text) :
    ip = text ∧ fp = [] ∧ e = 0 := by
  obtain ⟨mid, ex, h4, h5, ht, s1, -, -⟩ := decimal_parts h
  have hself : spanDigits text = (text, []) := by
    have := spanDigits_eq text [] ((isDigits_iff text).1 hall) (by simp)
    rwa [List.append_nil] at this
  rw [hself] at s1
  obtain ⟨rfl, hnil⟩ := Prod.mk.inj s1
  have hnil' := hnil.symm
  rw [List.append_eq_nil_iff] at hnil'
  obtain ⟨rfl, rfl⟩ := hnil'
  rcases h5 with h5 | ⟨-, rfl⟩
  · cases h5
  cases h4
  exact ⟨rfl, rfl, rfl⟩

theorem digitsNum_ge {c : Char} {cs : List Char} (h : IsDigits 10 (c :: cs)) (hc : c ≠ '0') :
    10 ^ cs.length ≤ digitsNum 10 (c :: cs) := by
  rw [show c :: cs = [c] ++ cs from rfl, digitsNum_append]
  have : 1 ≤ digitsNum 10 [c] := by
    obtain ⟨d, hd, hcd⟩ := h c (by simp)
    interval_cases d <;> rcases hcd with rfl | rfl <;> first | exact absurd rfl hc | decide
  calc 10 ^ cs.length = 1 * 10 ^ cs.length := (one_mul _).symm
    _ ≤ digitsNum 10 [c] * 10 ^ cs.length := Nat.mul_le_mul_right _ this
    _ ≤ _ := Nat.le_add_right _ _

/-- the text of a number is neither padded nor too long for its size -/
theorem numText_fine (env : Env) (k : Nat) (e : Int) (hk : env.Fits k) :
    ¬ PaddedDigits (numText k e) ∧ ¬ LongDigits env (numText k e) := by
  obtain ⟨ip, fp, x, hdec, hkk, -, hz⟩ := numText_decimal k e
  have hpad : ¬ PaddedDigits (numText k e) := by
    rintro ⟨hall, hh, y, hy, hy0⟩
    apply hz
    cases ht : numText k e with
    | nil => rw [ht] at hh; cases hh
    | cons c cs =>
      rw [ht] at hall hh hy
      simp only [List.head?_cons, Option.some.injEq] at hh
      subst hh
      cases cs with
      | nil => simp only [List.mem_singleton] at hy; exact absurd hy hy0
      | cons c' cs' =>
        exact ⟨c', cs', rfl, fun z hz => hall z (by simp only [List.mem_singleton] at hz; subst hz; simp)⟩
  refine ⟨hpad, ?_⟩
  rintro ⟨hall, ⟨digits, hd, hl⟩, y, hy, hy0⟩
  obtain ⟨rfl, rfl, -⟩ := digits_parts hdec hall
  rw [List.append_nil] at hkk
  cases ht : numText k e with
  | nil => rw [ht] at hy; cases hy
  | cons c cs =>
    have hc : c ≠ '0' := by
      rintro rfl
      exact hpad ⟨hall, by rw [ht]; rfl, y, hy, hy0⟩
    rw [ht] at hkk hall hl
    have h1 := digitsNum_ge hall hc
    rw [hkk] at h1
    simp only [List.length_cons] at hl
    have h2 : 10 ^ digits ≤ 10 ^ cs.length := Nat.pow_le_pow_right (by norm_num) (by omega)
    exact absurd (h2.trans h1) (not_le.2 (hk digits hd))

/-- **C54.** `x.to_str.to_flt` has the value of `x` again if `x` is not negative and has at most 4.5e15 units of its
last place (or is a whole number), and at most `sys.get_int_max_str_digits()` digits… -/
theorem to_str_to_flt (env : Env) (dc : DecCtx) (k : Nat) (e : Int)
    (hk : env.Fits k) (hs : e = 0 ∨ k ≤ 45 * 10 ^ 14 ∧ -289 ≤ e ∧ e ≤ 290) :
    ∃ s, ToStr env dc (.fin false k e) s ∧ AttrNum env dc (.str s) "to_flt" (finVal false k e) := by
  refine ⟨_, toStr_eq env dc (.fin false k e), ?_⟩
  obtain ⟨hf1, hf2⟩ := numText_fine env k e hk
  obtain ⟨ip, fp, x, hdec, hkk, hx, -⟩ := numText_decimal k e
  have h := to_flt_exact env dc (numText k e) ip fp [] [] x hdec hf1 hf2 (by
    rcases hs with rfl | h
    · left
      have : numText k 0 = natDigits k := by
        unfold numText decToString
        have h1 : (-6 : Int) < (natDigits k).length := by omega
        have h2 : natDigits k ≠ [] := by
          obtain ⟨-, -, c, cs, hc, -⟩ := natDigits_spec k
          rw [hc]; simp
        simp [h1, h2]
      rw [this]
      exact (natDigits_spec k).1
    · right
      rw [hkk, hx]
      exact h) (by simp) (by simp)
  have hv := finVal_decimal ip fp x
  rw [hkk, hx] at hv
  rw [hv]
  simpa [numText] using h

/-- … but for a negative number `x.to_str.to_flt` is NaN. -/
theorem negative_to_str_to_flt (env : Env) (dc : DecCtx) (k : Nat) (e : Int) :
    ∃ s, ToStr env dc (.fin true k e) s ∧ attrResult env dc (.str s) "to_flt" = .ok (.dec .nan) := by
  refine ⟨_, toStr_eq env dc (.fin true k e), ?_⟩
  obtain ⟨ip, fp, x, hdec, -⟩ := numText_decimal k e
  have hstrip : pyStrip (decToString true k e).toList = '-' :: numText k e := by
    rw [decToString_neg, String.toList_ofList]
    apply pyStrip_numChars
    intro c hc
    simp only [if_true, List.cons_append, List.nil_append, List.mem_cons] at hc
    rcases hc with rfl | hc
    · rfl
    · exact decimal_chars hdec c hc
  obtain ⟨c, cs, hcs, hfirst⟩ := decimal_first hdec
  refine to_flt_other env dc _ ?_ ?_ ?_ ?_
  · rw [hstrip, show "inf".toList = ['i', 'n', 'f'] by decide]
    simp
  · rw [hstrip, hcs, show "-inf".toList = ['-', 'i', 'n', 'f'] by decide]
    simp only [List.cons_prefix_cons, true_and, not_and]
    rintro rfl
    exact absurd hfirst (by decide)
  · rw [hstrip]
    rintro ⟨ip', fp', x', h'⟩
    obtain ⟨c', cs', hc', hf'⟩ := decimal_first h'
    obtain ⟨rfl, -⟩ := List.cons.inj hc'
    exact absurd hf' (by decide)
  · rw [hstrip]
    rintro ⟨base, letter, ds, -, -, -, h'⟩
    exact absurd (List.cons.inj h').1 (by decide)

/-! ### Witnesses -/

/-- `0.00000012`, `-1.20E+7` and a negative zero -/
example : ToStr sampleEnv .default (.fin false 12 (-8)) "1.2E-7" ∧ ToStr sampleEnv .default (.fin true 120 5) "-1.20E+7" ∧
    ToStr sampleEnv .default (.fin true 0 (-2)) "-0.00" ∧ ToStr sampleEnv .default (.fin false 12345 (-3)) "12.345" ∧
    (Dec.fin true 120 5).Representable := by
  refine ⟨?_, ?_, ?_, ?_, ?_⟩
  · exact toStr_eq _ _ _
  · exact toStr_eq _ _ _
  · exact toStr_eq _ _ _
  · exact toStr_eq _ _ _
  · show decRepresentable 120 5 = true
    decide +kernel

example : builtinResult sampleEnv .default "parse_float" [.str "x"] = .error (.eng .functionCall) ∧
    builtinResult sampleEnv .default "parse_float" [.str "-1.20E+7"] = .ok (.dec (.fin true 120 5)) ∧
    builtinResult sampleEnv .default "parse_timedelta" [.str "PT1.5S"] = .ok (.timedelta 1500000) := by
  decide +kernel

end RE
