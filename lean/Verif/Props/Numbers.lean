import Verif.Props.FloatRepr
import Verif.Props.Times
import Verif.Props.Bits
import Verif.Props.LiteralText
import Verif.Props.Strings

/-!
# Numbers read off durations, dates, texts and numbers (C53)
-/

set_option linter.unusedSimpArgs false

namespace RE

/-- Specification: `v.name` is the number `q`, exactly. -/
def AttrNum (env : Env) (dc : DecCtx) (v : Value) (name : String) (q : ℚ) : Prop :=
  ∃ d, attrResult env dc v name = .ok (.dec d) ∧ d.num = some q

/-- a float as attribute -/
theorem attrNum_float (env : Env) (dc : DecCtx) (v : Value) (name : String) (f : PyFloat) (q : ℚ)
    (h : resolveAttr env v name = .ok (.dec f.repr)) (hq : f.repr.num = some q) : AttrNum env dc v name q := by
  refine ⟨f.repr, ?_, hq⟩
  rw [attr_of_resolve env dc v _ name h]
  rfl

theorem natAbs_quot (a : Int) (n : Nat) (j : Nat) (hn : n = 10 ^ j) :
    (a.natAbs : ℚ) / ((n : Int).natAbs : ℚ) = (a.natAbs : ℚ) * (10 : ℚ) ^ (-(j : Int)) := by
  subst hn
  rw [Int.natAbs_natCast, zpow_neg, zpow_natCast, div_eq_mul_inv]
  push_cast
  rfl

theorem signed_natAbs (a : Int) : (if decide (a < 0) then (-1 : ℚ) else 1) * (a.natAbs : ℚ) = a := by
  rw [Nat.cast_natAbs]
  by_cases h : a < 0
  · simp only [h, decide_true, if_true, abs_of_neg h]; push_cast; ring
  · simp only [h, decide_false, Bool.false_eq_true, if_false, abs_of_nonneg (not_lt.1 h), one_mul]

/-- the quotient by a power of ten -/
theorem floatQuot_exact (a : Int) (j : Nat) (hj : j ≤ 289) (ha : |a| ≤ 45 * 10 ^ 14) :
    (floatQuot a ((10 ^ j : Nat) : Int)).repr.num = some ((a : ℚ) / 10 ^ j) := by
  unfold floatQuot
  rw [natAbs_quot a _ j rfl]
  have hneg : ¬ (((10 ^ j : Nat) : Int) < 0) := not_lt.2 (by positivity)
  have hm : a.natAbs ≤ 45 * 10 ^ 14 := by rw [Int.abs_eq_natAbs] at ha; exact_mod_cast ha
  rw [float_repr_exact _ hm (by omega) (by omega)]
  simp only [hneg, decide_false, Bool.bne_false, Option.some.injEq]
  rw [← mul_assoc, signed_natAbs, zpow_neg, zpow_natCast, div_eq_mul_inv]

/-- **C53.** `t.total_seconds` is the length of the timedelta in seconds, exactly, up to 4.5e15 microseconds (142
years). -/
theorem total_seconds_exact (env : Env) (dc : DecCtx) (us : Int) (h : |us| ≤ 45 * 10 ^ 14) :
    AttrNum env dc (.timedelta us) "total_seconds" ((us : ℚ) / 1000000) := by
  have := floatQuot_exact us 6 (by norm_num) h
  refine attrNum_float env dc _ _ (floatQuot us 1000000) _ ?_ (by norm_num at this ⊢; exact this)
  simp [resolveAttr, fromValue, attrKind, attrTypeFn, attrValue, except_ok_bind, coerceVerify, coerce, DataType.compat]

/-- **C53.** `d.to_epoch` is the time since 1970-01-01T00:00Z in seconds, exactly, for 4.5e15 microseconds (142 years)
before and after that. -/
theorem to_epoch_exact (env : Env) (dc : DecCtx) (us : Int) (tz : Nat)
    (h : |us - (env.utcoffset tz us).us - 719162 * 86400 * 1000000| ≤ 45 * 10 ^ 14) :
    AttrNum env dc (.datetime us (some tz)) "to_epoch"
      (((us - (env.utcoffset tz us).us - 719162 * 86400 * 1000000 : Int) : ℚ) / 1000000) := by
  have := floatQuot_exact _ 6 (by norm_num) h
  refine attrNum_float env dc _ _ (floatQuot (us - (env.utcoffset tz us).us - 719162 * 86400 * 1000000) 1000000) _ ?_
    (by norm_num at this ⊢; exact this)
  simp [resolveAttr, fromValue, attrKind, attrTypeFn, attrValue, except_ok_bind, coerceVerify, coerce, DataType.compat,
    utcOf, dayUs]

/-- **C53.** `d.millisecond` is a thousandth of the microseconds of the datetime, exactly. -/
theorem millisecond_exact (env : Env) (dc : DecCtx) (us : Int) (tz : Option Nat) :
    AttrNum env dc (.datetime us tz) "millisecond" (((us % 1000000 : Int) : ℚ) / 1000) := by
  have h1 := Int.emod_nonneg us (by norm_num : (1000000 : Int) ≠ 0)
  have h2 := Int.emod_lt_of_pos us (by norm_num : (0 : Int) < 1000000)
  have := floatQuot_exact (us % 1000000) 3 (by norm_num) (by rw [abs_of_nonneg h1]; omega)
  refine attrNum_float env dc _ _ (floatQuot (us % 1000000) 1000) _ ?_ (by norm_num at this ⊢; exact this)
  simp [resolveAttr, fromValue, attrKind, attrTypeFn, attrValue, except_ok_bind, coerceVerify, coerce, DataType.compat]

/-! ### Numbers -/

theorem decFloor_eq (n : Bool) (k : Nat) (e : Int) : decFloor n k e = ⌊finVal n k e⌋ := by
  symm
  rw [Int.floor_eq_iff]
  unfold decFloor
  split_ifs with h hn
  · obtain ⟨m, rfl⟩ := Int.eq_ofNat_of_zero_le h
    rw [scaled_val n k m 0 h]
    simp
  · obtain ⟨m, hm⟩ := Int.eq_ofNat_of_zero_le (a := -e) (by omega)
    have he : e = -(m : Int) := by omega
    subst he
    simp only [neg_neg, Int.toNat_natCast, finVal, hn, if_true, zpow_neg, zpow_natCast]
    have hp : (0 : ℚ) < (10 : ℚ) ^ m := by positivity
    have hpi : (0 : Int) < ((10 ^ m : Nat) : Int) := by positivity
    have h1 := Int.emod_add_mul_ediv (-(k : Int)) ((10 ^ m : Nat) : Int)
    have h2 := Int.emod_nonneg (-(k : Int)) hpi.ne'
    have h3 := Int.emod_lt_of_pos (-(k : Int)) hpi
    generalize -(k : Int) / ((10 ^ m : Nat) : Int) = q at *
    generalize -(k : Int) % ((10 ^ m : Nat) : Int) = r at *
    have h1q : (r : ℚ) + (10 : ℚ) ^ m * q = -(k : ℚ) := by exact_mod_cast h1
    have h2q : (0 : ℚ) ≤ r := by exact_mod_cast h2
    have h3q : (r : ℚ) < (10 : ℚ) ^ m := by exact_mod_cast h3
    rw [← h1q, ← div_eq_mul_inv, le_div_iff₀ hp, div_lt_iff₀ hp]
    constructor <;> nlinarith
  · obtain ⟨m, hm⟩ := Int.eq_ofNat_of_zero_le (a := -e) (by omega)
    have he : e = -(m : Int) := by omega
    subst he
    simp only [neg_neg, Int.toNat_natCast, finVal, hn, if_false, zpow_neg, zpow_natCast, Bool.false_eq_true]
    have hp : (0 : ℚ) < (10 : ℚ) ^ m := by positivity
    have hpi : (0 : Int) < ((10 ^ m : Nat) : Int) := by positivity
    have h1 := Int.emod_add_mul_ediv (k : Int) ((10 ^ m : Nat) : Int)
    have h2 := Int.emod_nonneg (k : Int) hpi.ne'
    have h3 := Int.emod_lt_of_pos (k : Int) hpi
    generalize (k : Int) / ((10 ^ m : Nat) : Int) = q at *
    generalize (k : Int) % ((10 ^ m : Nat) : Int) = r at *
    have h1q : (r : ℚ) + (10 : ℚ) ^ m * q = (k : ℚ) := by exact_mod_cast h1
    have h2q : (0 : ℚ) ≤ r := by exact_mod_cast h2
    have h3q : (r : ℚ) < (10 : ℚ) ^ m := by exact_mod_cast h3
    rw [← h1q, ← div_eq_mul_inv, le_div_iff₀ hp, div_lt_iff₀ hp]
    constructor <;> nlinarith

/-- **Specification.** The number has at most as many digits as `sys.get_int_max_str_digits()` says (4300 unless it
was changed; it cannot be less than 640). -/
def Env.Fits (env : Env) (n : Nat) : Prop := ∀ digits, env.maxStrDigits = some digits → n < 10 ^ digits

theorem env_fits_iff {env : Env} {n : Nat} : env.Fits n ↔ env.tooLong n = false := by
  unfold Env.Fits Env.tooLong
  cases env.maxStrDigits <;> simp

theorem Env.Fits.mono {env : Env} {m n : Nat} (h : env.Fits n) (hm : m ≤ n) : env.Fits m :=
  fun d hd => lt_of_le_of_lt hm (h d hd)

/-- **C53.** `x.floor` is the greatest integer that is not over the number, provided it has at most
`sys.get_int_max_str_digits()` digits. -/
theorem floor_exact (env : Env) (dc : DecCtx) (d : Dec) (q : ℚ) (h : d.num = some q) (hs : env.Fits ⌊q⌋.natAbs) :
    AttrIs env dc (.dec d) "floor" ⌊q⌋ := by
  cases d with
  | fin n k e =>
    simp only [Dec.num, Option.some.injEq] at h
    subst h
    refine attrIs_of env dc _ _ _ ?_
    simp [resolveAttr, fromValue, attrKind, attrTypeFn, attrValue, except_ok_bind, coerceVerify, coerce,
      DataType.compat, decFloor_eq, Env.shortInt, env_fits_iff.1 hs]
  | inf b => simp [Dec.num] at h
  | nan => simp [Dec.num] at h

/-- **C53.** `x.ceiling` is the least integer that is not below the number, provided it has at most
`sys.get_int_max_str_digits()` digits. -/
theorem ceiling_exact (env : Env) (dc : DecCtx) (d : Dec) (q : ℚ) (h : d.num = some q) (hs : env.Fits ⌈q⌉.natAbs) :
    AttrIs env dc (.dec d) "ceiling" ⌈q⌉ := by
  cases d with
  | fin n k e =>
    simp only [Dec.num, Option.some.injEq] at h
    subst h
    refine attrIs_of env dc _ _ _ ?_
    have : -⌊finVal (!n) k e⌋ = ⌈finVal n k e⌉ := by rw [finVal_negate, Int.floor_neg, neg_neg]
    simp [resolveAttr, fromValue, attrKind, attrTypeFn, attrValue, except_ok_bind, coerceVerify, coerce,
      DataType.compat, decCeil, decFloor_eq, this, Env.shortInt, env_fits_iff.1 hs]
  | inf b => simp [Dec.num] at h
  | nan => simp [Dec.num] at h

theorem attr_of_error (env : Env) (dc : DecCtx) (v : Value) (name : String) (e : Err)
    (h : resolveAttr env v name = .error e) (he : isAttrErr e = false) : attrResult env dc v name = .error e := by
  unfold attrResult
  simp [eval, M.bind_apply, M.pure_apply, evalGetAttr, h, he]

/-- **C53.** … and ValueError otherwise: the int is converted through `repr`. -/
theorem floor_ceiling_too_long (env : Env) (dc : DecCtx) (d : Dec) (q : ℚ) (h : d.num = some q) :
    (¬ env.Fits ⌊q⌋.natAbs → attrResult env dc (.dec d) "floor" = .error (.py .valueError)) ∧
    (¬ env.Fits ⌈q⌉.natAbs → attrResult env dc (.dec d) "ceiling" = .error (.py .valueError)) := by
  cases d with
  | fin n k e =>
    simp only [Dec.num, Option.some.injEq] at h
    subst h
    have : -⌊finVal (!n) k e⌋ = ⌈finVal n k e⌉ := by rw [finVal_negate, Int.floor_neg, neg_neg]
    simp only [env_fits_iff, Bool.not_eq_false]
    refine ⟨fun hs => attr_of_error env dc _ _ _ ?_ rfl, fun hs => attr_of_error env dc _ _ _ ?_ rfl⟩ <;>
      simp only [resolveAttr, fromValue, attrKind, attrTypeFn, attrValue, Env.shortInt, decCeil, decFloor_eq, this, hs,
        if_true] <;> rfl
  | inf b => simp [Dec.num] at h
  | nan => simp [Dec.num] at h

/-- **C53.** `x.floor` and `x.ceiling` keep the infinities and NaN, `x.is_nan` is true for NaN only, and `x.to_flt` is
`x`. -/
theorem number_attributes (env : Env) (dc : DecCtx) (d : Dec) :
    (d.num = none → attrResult env dc (.dec d) "floor" = .ok (.dec d) ∧
      attrResult env dc (.dec d) "ceiling" = .ok (.dec d)) ∧
    attrResult env dc (.dec d) "is_nan" = .ok (.bool (decide (d = .nan))) ∧
    attrResult env dc (.dec d) "to_flt" = .ok (.dec d) := by
  refine ⟨fun h => ?_, ?_, ?_⟩
  · cases d with
    | fin n k e => simp [Dec.num] at h
    | inf b => exact ⟨attr_of_resolve env dc _ (.dec (.inf b)) _ rfl, attr_of_resolve env dc _ (.dec (.inf b)) _ rfl⟩
    | nan => exact ⟨attr_of_resolve env dc _ (.dec .nan) _ rfl, attr_of_resolve env dc _ (.dec .nan) _ rfl⟩
  · exact attr_of_resolve env dc _ (.bool (decide (d = .nan))) _ (by cases d <;> rfl)
  · exact attr_of_resolve env dc _ (.dec d) _ rfl

/-- **C53.** `x.to_int` is `x` for a whole number in the range of floats, and an EvaluationError otherwise. -/
theorem to_int_exact (env : Env) (dc : DecCtx) (d : Dec) :
    (∀ z, d.isWhole z → attrResult env dc (.dec d) "to_int" = .ok (.dec d)) ∧
    ((¬ ∃ z, d.isWhole z) → attrResult env dc (.dec d) "to_int" = .error .mismatch) := by
  obtain ⟨b, hb, hiff⟩ := isInteger_dec d
  constructor
  · intro z hz
    have : b = true := hiff.2 ⟨z, hz⟩
    subst this
    refine attr_of_resolve env dc _ (.dec d) _ ?_
    simp [resolveAttr, fromValue, attrKind, attrTypeFn, attrValue, except_ok_bind, coerceVerify, coerce,
      DataType.compat, assertInteger, hb]
  · intro hz
    have : b = false := by
      cases b with
      | false => rfl
      | true => exact absurd (hiff.1 rfl) hz
    subst this
    unfold attrResult
    simp [eval, M.bind_apply, M.pure_apply, evalGetAttr, resolveAttr, fromValue, attrKind, attrTypeFn, attrValue,
      except_ok_bind, coerceVerify, coerce, DataType.compat, assertInteger, hb, Err.mismatch]
    rfl

/-! ### Texts -/

theorem pyStrip_gap {pre text post : List Char} (hpre : ∀ c ∈ pre, isPySpace c = true)
    (hpost : ∀ c ∈ post, isPySpace c = true) (ht : pyStrip text = text) (hne : text ≠ []) :
    pyStrip (pre ++ text ++ post) = text := by
  have drop : ∀ (a b : List Char), (∀ c ∈ a, isPySpace c = true) → (a ++ b).dropWhile isPySpace = b.dropWhile isPySpace := by
    intro a b h
    rw [List.dropWhile_append_of_pos h]
  obtain ⟨c, cs, rfl⟩ := List.exists_cons_of_ne_nil hne
  have h1 : (c :: cs).dropWhile isPySpace = c :: cs := by
    by_contra h
    have hlen : ((c :: cs).dropWhile isPySpace).length < (c :: cs).length := by
      have := (List.dropWhile_suffix (l := c :: cs) isPySpace).length_le
      rcases this.lt_or_eq with h' | h'
      · exact h'
      · exact absurd ((List.dropWhile_suffix (l := c :: cs) isPySpace).eq_of_length h') h
    have : (pyStrip (c :: cs)).length ≤ ((c :: cs).dropWhile isPySpace).length := by
      unfold pyStrip
      rw [List.length_reverse]
      refine (List.dropWhile_suffix _).length_le.trans ?_
      rw [List.length_reverse]
    rw [ht] at this
    omega
  have h2 : (c :: cs).reverse.dropWhile isPySpace = (c :: cs).reverse := by
    unfold pyStrip at ht
    rw [h1] at ht
    have := congrArg List.reverse ht
    rwa [List.reverse_reverse] at this
  unfold pyStrip
  rw [List.append_assoc, drop pre _ hpre]
  have h3 : ((c :: cs) ++ post).dropWhile isPySpace = (c :: cs) ++ post := by
    have hc : isPySpace c = false := by
      by_contra hc
      rw [Bool.not_eq_false] at hc
      rw [List.dropWhile_cons_of_pos hc] at h1
      have := (List.dropWhile_suffix (l := cs) isPySpace).length_le
      rw [h1] at this
      simp at this
    rw [List.cons_append, List.dropWhile_cons_of_neg (by simp [hc])]
  rw [h3, List.reverse_append, drop _ _ (by simpa using hpost), h2, List.reverse_reverse]

theorem isExponent_head {ex : List Char} {e : Int} (h : IsExponent ex e) : ∀ c, ex.head? = some c →
    isDigit c = false ∧ c ≠ '.' := by
  intro c hc
  cases h with
  | absent => simp at hc
  | plain k ds hk => rcases hk with rfl | rfl <;> (simp at hc; subst hc; decide)
  | plus k ds hk => rcases hk with rfl | rfl <;> (simp at hc; subst hc; decide)
  | minus k ds hk => rcases hk with rfl | rfl <;> (simp at hc; subst hc; decide)

/-- how a decimal number is taken apart -/
theorem decimal_parts {text ip fp : List Char} {e : Int} (h : IsDecimal text ip fp e) :
    ∃ mid ex, IsExponent ex e ∧ (mid = '.' :: fp ∨ mid = [] ∧ fp = []) ∧ text = ip ++ (mid ++ ex) ∧
      spanDigits text = (ip, mid ++ ex) ∧ takeFraction (mid ++ ex) = (fp, ex) ∧ spanDigits (fp ++ ex) = (fp, ex) := by
  obtain ⟨h1, h2, -, mid, ex, rfl, h4, h5⟩ := h
  have hh := isExponent_head h4
  have hfp : spanDigits (fp ++ ex) = (fp, ex) :=
    spanDigits_eq _ _ ((isDigits_iff _).1 h2) (fun c hc => (hh c hc).1)
  refine ⟨mid, ex, h4, h5, by rw [List.append_assoc], ?_, ?_, hfp⟩
  · rw [List.append_assoc]
    apply spanDigits_eq _ _ ((isDigits_iff _).1 h1)
    intro c hc
    rcases h5 with rfl | ⟨rfl, -⟩
    · simp at hc; subst hc; rfl
    · exact (hh c (by simpa using hc)).1
  · rcases h5 with rfl | ⟨rfl, rfl⟩
    · exact hfp
    · simp only [List.nil_append]
      unfold takeFraction
      split
      · exact absurd rfl (hh '.' rfl).2
      · rfl

theorem floatText_decimal {text ip fp : List Char} {e : Int} (h : IsDecimal text ip fp e) :
    floatText text = (digitsNum 10 (ip ++ fp) : ℚ) * (10 : ℚ) ^ (e - fp.length) := by
  obtain ⟨mid, ex, h4, -, -, s1, s2, -⟩ := decimal_parts h
  have hd : IsDigits 10 (ip ++ fp) := by
    intro c hc
    rcases List.mem_append.1 hc with hc | hc
    · exact h.1 c hc
    · exact h.2.1 c hc
  unfold floatText
  simp only [s1, s2, readNat_digits 10 (by omega) _ hd, readExponent_eq h4, pow10_eq, Option.getD_some, zero_mul, zero_add]

theorem decimalNum_eq (ip fp : List Char) (e : Int) :
    (digitsNum 10 (ip ++ fp) : ℚ) * (10 : ℚ) ^ (e - fp.length) = decimalNum ip fp e := by
  unfold decimalNum
  rw [digitsNum_append, zpow_sub₀ (by norm_num), zpow_natCast]
  push_cast
  field_simp

theorem allDigits_iff (ds : List Char) : allDigits ds = true ↔ ds ≠ [] ∧ IsDigits 10 ds := by
  rw [isDigits_iff]
  simp [allDigits]

theorem exponentToken_iff (ex : List Char) : exponentToken ex = true ↔ ∃ e, IsExponent ex e := by
  constructor
  · intro h
    cases ex with
    | nil => exact ⟨0, .absent⟩
    | cons c cs =>
      simp only [exponentToken, Bool.and_eq_true, Bool.or_eq_true, beq_iff_eq] at h
      obtain ⟨hc, h⟩ := h
      split at h
      · obtain ⟨a, b⟩ := (allDigits_iff _).1 h; exact ⟨_, .plus c _ hc a b⟩
      · obtain ⟨a, b⟩ := (allDigits_iff _).1 h; exact ⟨_, .minus c _ hc a b⟩
      · obtain ⟨a, b⟩ := (allDigits_iff _).1 h; exact ⟨_, .plain c _ hc a b⟩
  · rintro ⟨e, h⟩
    cases h with
    | absent => rfl
    | plain k ds hk hne hd =>
      have ha := (allDigits_iff ds).2 ⟨hne, hd⟩
      simp only [exponentToken, Bool.and_eq_true, Bool.or_eq_true, beq_iff_eq]
      refine ⟨hk, ?_⟩
      split
      · have := (isDigits_iff _).1 hd '+' (by simp); exact absurd this (by decide)
      · have := (isDigits_iff _).1 hd '-' (by simp); exact absurd this (by decide)
      · exact ha
    | plus k ds hk hne hd =>
      simp only [exponentToken, Bool.and_eq_true, Bool.or_eq_true, beq_iff_eq]
      exact ⟨hk, (allDigits_iff ds).2 ⟨hne, hd⟩⟩
    | minus k ds hk hne hd =>
      simp only [exponentToken, Bool.and_eq_true, Bool.or_eq_true, beq_iff_eq]
      exact ⟨hk, (allDigits_iff ds).2 ⟨hne, hd⟩⟩

theorem decimalToken_iff (text : List Char) : decimalToken text = true ↔ ∃ ip fp e, IsDecimal text ip fp e := by
  constructor
  · intro h
    unfold decimalToken at h
    obtain ⟨hs, hd⟩ := spanDigits_spec text
    cases hsp : spanDigits text with
    | mk ip rest =>
    rw [hsp] at h hs hd
    simp only at h hs hd
    split at h
    · rename_i r
      obtain ⟨hs', hd'⟩ := spanDigits_spec r
      cases hsp' : spanDigits r with
      | mk fp rest' =>
      rw [hsp'] at h hs' hd'
      simp only [Bool.and_eq_true] at h hs' hd'
      obtain ⟨e, he⟩ := (exponentToken_iff _).1 h.2
      refine ⟨ip, fp, e, hd, hd', ?_, '.' :: fp, rest', ?_, he, .inl rfl⟩
      · rcases Bool.or_eq_true _ _ ▸ h.1 with h | h <;> simp at h <;> simp [h]
      · rw [hs, hs']; simp
    · simp only [Bool.and_eq_true] at h
      obtain ⟨e, he⟩ := (exponentToken_iff _).1 h.2
      refine ⟨ip, [], e, hd, fun c hc => (by cases hc), .inl (by simpa using h.1), [], rest, ?_, he, .inr ⟨rfl, rfl⟩⟩
      rw [hs]; simp
  · rintro ⟨ip, fp, e, h⟩
    obtain ⟨mid, ex, h4, h5, -, s1, s2, s3⟩ := decimal_parts h
    have hx := (exponentToken_iff ex).2 ⟨e, h4⟩
    have h3 := h.2.2.1
    unfold decimalToken
    rw [s1]
    rcases h5 with rfl | ⟨rfl, rfl⟩
    · simp only [List.cons_append, s3, hx, Bool.and_true, Bool.or_eq_true]
      rcases h3 with h | h
      · left; simpa using h
      · right; simpa using h
    · simp only [List.nil_append]
      have hip : ip ≠ [] := by simpa using h3
      split
      · exact absurd rfl ((isExponent_head h4) '.' rfl).2
      · simpa [hx] using hip

/-- the characters of a decimal number -/
theorem decimal_chars {text ip fp : List Char} {e : Int} (h : IsDecimal text ip fp e) :
    ∀ c ∈ text, isNumChar c = true := by
  obtain ⟨h1, h2, -, mid, ex, rfl, h4, h5⟩ := h
  have hd : ∀ ds : List Char, IsDigits 10 ds → ∀ c ∈ ds, isDigit c = true := fun ds h c hc => isDigit_of (h c hc)
  intro c hc
  simp only [List.mem_append] at hc
  rcases hc with (hc | hc) | hc
  · simp [isNumChar, hd ip h1 c hc]
  · rcases h5 with rfl | ⟨rfl, -⟩
    · rcases List.mem_cons.1 hc with rfl | hc
      · rfl
      · simp [isNumChar, hd fp h2 c hc]
    · simp at hc
  · exact isExponent_numChars h4 c hc

theorem decimal_first {text ip fp : List Char} {e : Int} (h : IsDecimal text ip fp e) :
    ∃ c cs, text = c :: cs ∧ (isDigit c = true ∨ c = '.') := by
  obtain ⟨h1, h2, h3, mid, ex, rfl, h4, h5⟩ := h
  cases ip with
  | cons c cs => exact ⟨c, cs ++ mid ++ ex, rfl, .inl (isDigit_of (h1 c (by simp)))⟩
  | nil =>
    rcases h5 with rfl | ⟨rfl, rfl⟩
    · exact ⟨'.', fp ++ ex, rfl, .inr rfl⟩
    · simp at h3

theorem not_inf {c : Char} {cs : List Char} (h : isDigit c = true ∨ c = '.') :
    ("inf".toList.isPrefixOf (c :: cs) || "-inf".toList.isPrefixOf (c :: cs)) = false := by
  have h1 : ('i' == c) = false := by
    rw [beq_eq_false_iff_ne]; rintro rfl; revert h; decide
  have h2 : ('-' == c) = false := by
    rw [beq_eq_false_iff_ne]; rintro rfl; revert h; decide
  rw [show "inf".toList = ['i', 'n', 'f'] by decide, show "-inf".toList = ['-', 'i', 'n', 'f'] by decide]
  simp [List.isPrefixOf, h1, h2]

theorem decimal_not_prefixed {text ip fp : List Char} {e : Int} (h : IsDecimal text ip fp e) :
    prefixedToken text = none := by
  have hc := decimal_chars h
  unfold prefixedToken
  split
  · rename_i c d ds
    have hn := hc c (by simp)
    have h1 : (c == 'b') = false := by rw [beq_eq_false_iff_ne]; rintro rfl; revert hn; decide
    have h2 : (c == 'o') = false := by rw [beq_eq_false_iff_ne]; rintro rfl; revert hn; decide
    have h3 : (c == 'x') = false := by rw [beq_eq_false_iff_ne]; rintro rfl; revert hn; decide
    simp [h1, h2, h3]
  · rfl

/-- the number of a text as attribute -/
theorem to_flt_of (env : Env) (dc : DecCtx) (s : String) (w : Value) (d : Dec) (h : stringToFlt env s = .ok w)
    (hw : coerce env.utcoffset w = .dec d) (hs : ∀ i, w = .int i → env.Fits i.natAbs) :
    attrResult env dc (.str s) "to_flt" = .ok (.dec d) := by
  refine attr_of_resolve env dc _ (.dec d) _ ?_
  have hsw : env.shortInt w = .ok w := by
    unfold Env.shortInt
    split
    · rw [env_fits_iff.1 (hs _ rfl)]; rfl
    · rfl
  simp [resolveAttr, fromValue, attrKind, attrTypeFn, attrValue, except_ok_bind, coerceVerify, h, hw, hsw,
    DataType.compat]

theorem digitsNum_bound : ∀ (text : List Char), IsDigits 10 text → digitsNum 10 text < 10 ^ text.length
  | [], _ => by decide
  | c :: cs, h => by
    rw [show c :: cs = [c] ++ cs from rfl, digitsNum_append]
    have h1 : digitsNum 10 [c] ≤ 9 := by
      obtain ⟨d, hd, hcd⟩ := h c (by simp)
      interval_cases d <;> rcases hcd with rfl | rfl <;> decide
    have h2 := digitsNum_bound cs (fun x hx => h x (by simp [hx]))
    simp only [List.length_append, List.length_cons, List.length_nil, zero_add, pow_add, pow_one]
    nlinarith

theorem digitsNum_all_zero : ∀ (text : List Char), (∀ x ∈ text, x = '0') → digitsNum 10 text = 0
  | [], _ => by decide
  | c :: cs, h => by
    rw [show c :: cs = [c] ++ cs from rfl, digitsNum_append, digitsNum_all_zero cs (fun x hx => h x (by simp [hx])),
      h c (by simp)]
    simp; decide

/-- Specification: nothing but digits, the first a needless zero. -/
def PaddedDigits (text : List Char) : Prop :=
  IsDigits 10 text ∧ text.head? = some '0' ∧ ∃ x ∈ text, x ≠ '0'

/-- Specification: nothing but digits, more than `sys.get_int_max_str_digits()`. -/
def LongDigits (env : Env) (text : List Char) : Prop :=
  IsDigits 10 text ∧ (∃ digits, env.maxStrDigits = some digits ∧ digits < text.length) ∧ ∃ x ∈ text, x ≠ '0'

/-- the check of `ast.literal_eval` on digits -/
theorem badDigits_iff {env : Env} {text : List Char} (hall : IsDigits 10 text) :
    ((text.head? == some '0' || env.tooMany text.length) && text.any (· != '0')) = true ↔
      PaddedDigits text ∨ LongDigits env text := by
  have h : env.tooMany text.length = true ↔ ∃ digits, env.maxStrDigits = some digits ∧ digits < text.length := by
    unfold Env.tooMany
    cases env.maxStrDigits <;> simp
  simp only [Bool.and_eq_true, Bool.or_eq_true, beq_iff_eq, List.any_eq_true, bne_iff_ne,
    PaddedDigits, LongDigits, hall, true_and, h]
  exact or_and_right

/-- **C53.** `"text".to_flt` is the number the text spells, exactly, if it has at most 4.5e15 units of its last place
and a sensible exponent, or consists of at most `sys.get_int_max_str_digits()` digits only (without a needless zero in front); blanks around it
are ignored. -/
theorem to_flt_exact (env : Env) (dc : DecCtx) (text ip fp pre post : List Char) (e : Int)
    (h : IsDecimal text ip fp e) (hz : ¬ PaddedDigits text) (hl : ¬ LongDigits env text)
    (hs : IsDigits 10 text ∨ digitsNum 10 (ip ++ fp) ≤ 45 * 10 ^ 14 ∧ -289 ≤ e - fp.length ∧ e - fp.length ≤ 290)
    (hpre : ∀ c ∈ pre, isPySpace c = true) (hpost : ∀ c ∈ post, isPySpace c = true) :
    AttrNum env dc (.str (String.ofList (pre ++ text ++ post))) "to_flt" (decimalNum ip fp e) := by
  obtain ⟨c, cs, hcs, hfirst⟩ := decimal_first h
  have hstrip : pyStrip (pre ++ text ++ post) = text :=
    pyStrip_gap hpre hpost (pyStrip_numChars (decimal_chars h)) (by rw [hcs]; simp)
  have hinf := not_inf (cs := cs) hfirst
  rw [← hcs] at hinf
  have htok := (decimalToken_iff text).2 ⟨ip, fp, e, h⟩
  by_cases hall : IsDigits 10 text
  · -- digits only: an int
    have hall' : text.all isDigit = true := by
      rw [List.all_eq_true]; exact (isDigits_iff text).1 hall
    have hpad : ((text.head? == some '0' || env.tooMany text.length) && text.any (· != '0')) = false := by
      rw [Bool.eq_false_iff, ne_eq, badDigits_iff hall]
      exact not_or.2 ⟨hz, hl⟩
    have hres : stringToFlt env (String.ofList (pre ++ text ++ post)) = .ok (.int (digitsNum 10 text : Nat)) := by
      unfold stringToFlt
      simp only [String.toList_ofList, hstrip, hinf, decimal_not_prefixed h, htok, hall', hpad, Bool.false_eq_true,
        if_false, if_true, readNat_digits 10 (by omega) text hall, Option.getD_some, zero_mul, zero_add]
    have hfit : env.Fits (digitsNum 10 text) := by
      intro digits hd
      by_cases h0 : ∃ x ∈ text, x ≠ '0'
      · have : text.length ≤ digits := by
          by_contra hlt
          exact hl ⟨hall, ⟨digits, hd, by omega⟩, h0⟩
        exact lt_of_lt_of_le (digitsNum_bound text hall) (Nat.pow_le_pow_right (by norm_num) this)
      · simp only [not_exists, not_and, not_not] at h0
        rw [digitsNum_all_zero text h0]
        positivity
    refine ⟨.ofInt (digitsNum 10 text), to_flt_of env dc _ _ _ hres rfl (fun i hi => by cases hi; exact hfit), ?_⟩
    -- the parts are the whole text
    obtain ⟨mid, ex, h4, h5, ht, s1, -, -⟩ := decimal_parts h
    have hself : spanDigits text = (text, []) := by
      have := spanDigits_eq text [] ((isDigits_iff text).1 hall) (by simp)
      rwa [List.append_nil] at this
    rw [hself] at s1
    obtain ⟨rfl, hnil⟩ := Prod.mk.inj s1
    have hnil' := hnil.symm
    rw [List.append_eq_nil_iff] at hnil'
    obtain ⟨rfl, rfl⟩ := hnil'
    rcases h5 with h5 | ⟨-, rfl⟩
    · cases h5
    cases h4
    have hnn : ¬ ((digitsNum 10 text : Int) < 0) := not_lt.2 (by positivity)
    simp only [Dec.ofInt, Dec.num, finVal, decimalNum, hnn, decide_false, Bool.false_eq_true, if_false,
      Int.natAbs_natCast, zpow_zero, mul_one, List.length_nil, pow_zero, div_one]
    simp [digitsNum]
  · -- a float
    have hall' : text.all isDigit = false := by
      by_contra hc
      rw [Bool.not_eq_false, List.all_eq_true] at hc
      exact hall ((isDigits_iff text).2 hc)
    have hs' := hs.resolve_left hall
    have hex := float_repr_exact (m := digitsNum 10 (ip ++ fp)) (j := e - fp.length) false hs'.1 hs'.2.1 hs'.2.2
    rw [decimalNum_eq] at hex
    simp only [Bool.false_eq_true, if_false, one_mul] at hex
    have hres : stringToFlt env (String.ofList (pre ++ text ++ post)) =
        .ok (.float (floatNear false (decimalNum ip fp e))) := by
      unfold stringToFlt
      simp only [String.toList_ofList, hstrip, hinf, decimal_not_prefixed h, htok, hall', Bool.false_eq_true,
        if_false, if_true, floatText_decimal h, decimalNum_eq]
    exact ⟨_, to_flt_of env dc _ _ _ hres rfl (fun i hi => by cases hi), hex⟩

/-- **C53.** A text of digits with a needless zero in front, or with more than `sys.get_int_max_str_digits()` digits, raises SyntaxError (an
exception of Python, not of the engine). -/
theorem to_flt_bad_digits (env : Env) (dc : DecCtx) (text pre post : List Char)
    (h : PaddedDigits text ∨ LongDigits env text)
    (hpre : ∀ c ∈ pre, isPySpace c = true) (hpost : ∀ c ∈ post, isPySpace c = true) :
    attrResult env dc (.str (String.ofList (pre ++ text ++ post))) "to_flt" = .error (.py .syntaxError) := by
  have hall : IsDigits 10 text := by rcases h with h | h <;> exact h.1
  have hne : text ≠ [] := by rcases h with ⟨-, -, x, hx, -⟩ | ⟨-, -, x, hx, -⟩ <;> exact List.ne_nil_of_mem hx
  have hdec : IsDecimal text text [] 0 :=
    ⟨hall, fun c hc => (by cases hc), .inl hne, [], [], by simp, .absent, .inr ⟨rfl, rfl⟩⟩
  obtain ⟨c, cs, hcs, hfirst⟩ := decimal_first hdec
  have hstrip : pyStrip (pre ++ text ++ post) = text :=
    pyStrip_gap hpre hpost (pyStrip_numChars (decimal_chars hdec)) hne
  have hinf := not_inf (cs := cs) hfirst
  rw [← hcs] at hinf
  have htok := (decimalToken_iff text).2 ⟨_, _, _, hdec⟩
  have hall' : text.all isDigit = true := by
    rw [List.all_eq_true]; exact (isDigits_iff text).1 hall
  have hres : stringToFlt env (String.ofList (pre ++ text ++ post)) = .error (.py .syntaxError) := by
    unfold stringToFlt
    simp only [String.toList_ofList, hstrip, hinf, decimal_not_prefixed hdec, htok, hall', (badDigits_iff hall).2 h,
      Bool.false_eq_true, if_false, if_true]
  refine attr_of_error env dc _ _ _ ?_ rfl
  generalize String.ofList (pre ++ text ++ post) = s at hres
  simp only [resolveAttr, fromValue, attrKind, attrTypeFn, attrValue, except_ok_bind, hres]
  rfl

theorem stringToFlt_prefixed (env : Env) (base : Nat) (letter : Char) (ds pre post : List Char)
    (hl : (base, letter) ∈ [(2, 'b'), (8, 'o'), (16, 'x')]) (hne : ds ≠ []) (hd : IsDigits base ds)
    (hpre : ∀ c ∈ pre, isPySpace c = true) (hpost : ∀ c ∈ post, isPySpace c = true) :
    stringToFlt env (String.ofList (pre ++ ('0' :: letter :: ds) ++ post)) = .ok (.int (digitsNum base ds : Nat)) := by
  have hb : base ≤ 16 := by
    simp only [List.mem_cons, Prod.mk.injEq, List.not_mem_nil, or_false] at hl
    omega
  have hsp : ∀ c ∈ ('0' :: letter :: ds), isPySpace c = false := by
    intro c hc
    simp only [List.mem_cons, Prod.mk.injEq, List.not_mem_nil, or_false] at hl hc
    rcases hc with rfl | rfl | hc
    · rfl
    · rcases hl with ⟨rfl, rfl⟩ | ⟨rfl, rfl⟩ | ⟨rfl, rfl⟩ <;> rfl
    · obtain ⟨n, h1, h2⟩ := hd c hc
      have h16 : n < 16 := by omega
      have key : ∀ n < 16, ∀ c, (c = lowerDigits[n]! ∨ c = upperDigits[n]!) → isPySpace c = false := by
        intro n hn c hc
        interval_cases n <;> rcases hc with rfl | rfl <;> decide
      exact key n h16 c h2
  have hstrip : pyStrip (pre ++ ('0' :: letter :: ds) ++ post) = '0' :: letter :: ds :=
    pyStrip_gap hpre hpost (by
      unfold pyStrip
      rw [dropWhile_none _ _ hsp, dropWhile_none _ _ (fun c hc => hsp c (List.mem_reverse.1 hc)), List.reverse_reverse]) (by simp)
  have htok : prefixedToken ('0' :: letter :: ds) = some (base, ds) := by
    obtain ⟨d, ds', rfl⟩ := List.exists_cons_of_ne_nil hne
    simp only [List.mem_cons, Prod.mk.injEq, List.not_mem_nil, or_false] at hl
    rcases hl with ⟨rfl, rfl⟩ | ⟨rfl, rfl⟩ | ⟨rfl, rfl⟩ <;>
      simp [prefixedToken, readNat_digits _ hb _ hd]
  have hinf := not_inf (c := '0') (cs := letter :: ds) (.inl rfl)
  unfold stringToFlt
  simp only [String.toList_ofList, hstrip, hinf, htok, Bool.false_eq_true, if_false,
    readNat_digits base hb ds hd, Option.getD_some, zero_mul, zero_add]

/-- **C53.** `"text".to_flt` is the number a binary, octal or hexadecimal text spells, provided it has at most
`sys.get_int_max_str_digits()` decimal digits; otherwise it raises ValueError. -/
theorem to_flt_prefixed (env : Env) (dc : DecCtx) (base : Nat) (letter : Char) (ds pre post : List Char)
    (hl : (base, letter) ∈ [(2, 'b'), (8, 'o'), (16, 'x')]) (hne : ds ≠ []) (hd : IsDigits base ds)
    (hpre : ∀ c ∈ pre, isPySpace c = true) (hpost : ∀ c ∈ post, isPySpace c = true) :
    (env.Fits (digitsNum base ds) →
      AttrNum env dc (.str (String.ofList (pre ++ ('0' :: letter :: ds) ++ post))) "to_flt" (digitsNum base ds)) ∧
    (¬ env.Fits (digitsNum base ds) →
      attrResult env dc (.str (String.ofList (pre ++ ('0' :: letter :: ds) ++ post))) "to_flt" =
        .error (.py .valueError)) := by
  have hres := stringToFlt_prefixed env base letter ds pre post hl hne hd hpre hpost
  refine ⟨fun hfit => ?_, fun hfit => attr_of_error env dc _ _ _ ?_ rfl⟩
  swap
  · rw [env_fits_iff, Bool.not_eq_false] at hfit
    generalize String.ofList (pre ++ ('0' :: letter :: ds) ++ post) = s at hres
    simp only [resolveAttr, fromValue, attrKind, attrTypeFn, attrValue, except_ok_bind, hres, Env.shortInt,
      Int.natAbs_natCast, hfit, if_true]
    rfl
  refine ⟨.ofInt (digitsNum base ds), to_flt_of env dc _ _ _ hres rfl (fun i hi => by cases hi; exact hfit), ?_⟩
  have hnn : ¬ ((digitsNum base ds : Int) < 0) := not_lt.2 (by positivity)
  simp only [Dec.ofInt, Dec.num, finVal, hnn, decide_false, Bool.false_eq_true, if_false,
    Int.natAbs_natCast, zpow_zero, mul_one, one_mul]

/-- **C53.** `"text".to_flt` is NaN for any other text, unless it begins with `inf` or `-inf` after the blanks: in
particular for a negative number. -/
theorem to_flt_other (env : Env) (dc : DecCtx) (s : String)
    (hinf : ¬ "inf".toList <+: pyStrip s.toList) (hminf : ¬ "-inf".toList <+: pyStrip s.toList)
    (hdec : ¬ ∃ ip fp e, IsDecimal (pyStrip s.toList) ip fp e)
    (hpre : ¬ ∃ base letter ds, (base, letter) ∈ [(2, 'b'), (8, 'o'), (16, 'x')] ∧ ds ≠ [] ∧ IsDigits base ds ∧
      pyStrip s.toList = '0' :: letter :: ds) :
    attrResult env dc (.str s) "to_flt" = .ok (.dec .nan) := by
  have h1 : ("inf".toList.isPrefixOf (pyStrip s.toList) || "-inf".toList.isPrefixOf (pyStrip s.toList)) = false := by
    rw [Bool.or_eq_false_iff]
    constructor
    · rw [Bool.eq_false_iff, ne_eq, List.isPrefixOf_iff_prefix]; exact hinf
    · rw [Bool.eq_false_iff, ne_eq, List.isPrefixOf_iff_prefix]; exact hminf
  have h2 : prefixedToken (pyStrip s.toList) = none := by
    cases hp : prefixedToken (pyStrip s.toList) with
    | none => rfl
    | some r =>
      exfalso
      unfold prefixedToken at hp
      split at hp
      · rename_i c d ds heq
        generalize hbase : (if c == 'b' then 2 else if c == 'o' then 8 else if c == 'x' then 16 else 0) = base at hp
        dsimp only at hp
        split at hp
        · rename_i hb
          simp only [Bool.and_eq_true, bne_iff_ne] at hb
          obtain ⟨hb0, hr⟩ := hb
          obtain ⟨n, hn⟩ := Option.isSome_iff_exists.1 hr
          refine hpre ⟨base, c, d :: ds, ?_, by simp, readNat_digits_of hn, heq⟩
          simp only [List.mem_cons, Prod.mk.injEq, List.not_mem_nil, or_false]
          split_ifs at hbase <;> simp_all
        · cases hp
      · cases hp
  have h3 : decimalToken (pyStrip s.toList) = false := by
    rw [Bool.eq_false_iff, ne_eq, decimalToken_iff]; exact hdec
  refine to_flt_of env dc s (.dec .nan) .nan ?_ rfl (fun i hi => by cases hi)
  unfold stringToFlt
  simp only [h1, h2, h3, Bool.false_eq_true, if_false]

/-- what the number of a text may be, as Python's value -/
theorem stringToFlt_cases (env : Env) (s : String) :
    (∃ w d, stringToFlt env s = .ok w ∧ (∀ off, coerce off w = .dec d) ∧
      (assertInteger w = .ok () ∨ assertInteger w = .error .mismatch ∨
        assertInteger w = .error (.py .overflowError))) ∨
      stringToFlt env s = .error (.py .syntaxError) ∨ stringToFlt env s = .error (.py .invalidOperation) := by
  have hint : ∀ w : Value, (isReal w = .ok true ∨ isReal w = .ok false ∨ isReal w = .error (.py .overflowError)) →
      (assertInteger w = .ok () ∨ assertInteger w = .error .mismatch ∨
        assertInteger w = .error (.py .overflowError)) := by
    intro w h
    unfold assertInteger isInteger
    rcases h with h | h | h <;> rw [h]
    · simp only [except_ok_bind, if_true]
      split
      · rename_i n k e
        cases decIsInt n k e
        · exact .inr (.inl rfl)
        · exact .inl rfl
      · rename_i n k e _
        cases decIsInt n k e
        · exact .inr (.inl rfl)
        · exact .inl rfl
      · exact .inl rfl
    · exact .inr (.inl rfl)
    · exact .inr (.inr rfl)
  have hdec : ∀ d : Dec, isReal (.dec d) = .ok true ∨ isReal (.dec d) = .ok false ∨
      isReal (.dec d) = .error (.py .overflowError) := by
    intro d
    simp only [isReal]
    cases decIsFinite d <;> simp
  have hi : ∀ i : Int, isReal (.int i) = .ok true ∨ isReal (.int i) = .ok false ∨
      isReal (.int i) = .error (.py .overflowError) := by
    intro i
    simp only [isReal]
    split <;> simp
  have hf : ∀ f : PyFloat, isReal (.float f) = .ok true ∨ isReal (.float f) = .ok false ∨
      isReal (.float f) = .error (.py .overflowError) := by
    intro f
    simp only [isReal]
    split <;> simp
  unfold stringToFlt
  simp only
  split
  · split
    · exact .inl ⟨_, _, rfl, fun _ => rfl, hint _ (hdec _)⟩
    · exact .inr (.inr rfl)
  · split
    · exact .inl ⟨_, _, rfl, fun _ => rfl, hint _ (hi _)⟩
    · split
      · split
        · split
          · exact .inr (.inl rfl)
          · exact .inl ⟨_, _, rfl, fun _ => rfl, hint _ (hi _)⟩
        · exact .inl ⟨_, _, rfl, fun _ => rfl, hint _ (hf _)⟩
      · exact .inl ⟨_, _, rfl, fun _ => rfl, hint _ (hdec _)⟩

/-- **C53.** `"text".to_int` is `"text".to_flt` or fails, whatever the text. -/
theorem text_to_int (env : Env) (dc : DecCtx) (s : String) (v : Value)
    (h : attrResult env dc (.str s) "to_int" = .ok v) : attrResult env dc (.str s) "to_flt" = .ok v := by
  rcases stringToFlt_cases env s with ⟨w, d, hw, hc, ha⟩ | he | he
  · rcases ha with ha | ha | ha
    · cases hs : env.shortInt w with
      | error e =>
        obtain ⟨rfl, -⟩ := shortInt_error hs
        rw [attr_of_error env dc (.str s) "to_int" (.py .valueError) (by
          simp only [resolveAttr, fromValue, attrKind, attrTypeFn, attrValue, except_ok_bind, hw, ha, hs]; rfl) rfl] at h
        cases h
      | ok w' =>
        cases shortInt_ok hs
        rw [to_flt_of env dc s w d hw (hc _) (by
          rintro i rfl
          rw [env_fits_iff]
          by_contra hl
          rw [Bool.not_eq_false] at hl
          simp [Env.shortInt, hl] at hs), ← h]
        refine (attr_of_resolve env dc _ (.dec d) _ ?_).symm
        simp [resolveAttr, fromValue, attrKind, attrTypeFn, attrValue, except_ok_bind, coerceVerify, hw, hc, ha, hs,
          DataType.compat]
    · rw [attr_of_error env dc (.str s) "to_int" .mismatch (by
        simp only [resolveAttr, fromValue, attrKind, attrTypeFn, attrValue, except_ok_bind, hw, ha]; rfl) rfl] at h
      cases h
    · rw [attr_of_error env dc (.str s) "to_int" (.py .overflowError) (by
        simp only [resolveAttr, fromValue, attrKind, attrTypeFn, attrValue, except_ok_bind, hw, ha]; rfl) rfl] at h
      cases h
  · rw [attr_of_error env dc (.str s) "to_int" (.py .syntaxError) (by
      simp only [resolveAttr, fromValue, attrKind, attrTypeFn, attrValue, except_ok_bind, he]; rfl) rfl] at h
    cases h
  · rw [attr_of_error env dc (.str s) "to_int" (.py .invalidOperation) (by
      simp only [resolveAttr, fromValue, attrKind, attrTypeFn, attrValue, except_ok_bind, he]; rfl) rfl] at h
    cases h

/-! ### Witnesses -/

/-- a duration of a day and a half and a microsecond -/
example : AttrNum sampleEnv .default (.timedelta 129600000001) "total_seconds" (129600000001 / 1000000) :=
  total_seconds_exact _ _ _ (by norm_num)

/-- beyond the bound the number is not exact any more: 9007199254.740994 seconds -/
theorem total_seconds_inexact :
    ¬ AttrNum sampleEnv .default (.timedelta 9007199254740994) "total_seconds" (9007199254740994 / 1000000) := by
  rintro ⟨d, h, hd⟩
  have : attrResult sampleEnv .default (.timedelta 9007199254740994) "total_seconds" =
      .ok (.dec (.fin false 9007199254740993 (-6))) := by decide +kernel
  rw [this] at h
  cases h
  norm_num [Dec.num, finVal] at hd

theorem sample_fits {n : Nat} (h : n < 10 ^ 4300) : sampleEnv.Fits n := by
  intro d hd
  cases hd
  exact h

theorem power_num (n : Nat) : (Dec.fin false 1 n).num = some (((10 ^ n : Nat) : Int) : ℚ) := by
  simp [Dec.num, finVal]

theorem power_long {n : Nat} (h : 4300 ≤ n) : ¬ sampleEnv.Fits ⌊(((10 ^ n : Nat) : Int) : ℚ)⌋.natAbs := by
  intro h'
  have h1 := h' 4300 rfl
  rw [Int.floor_intCast, Int.natAbs_natCast] at h1
  exact absurd h1 (not_lt.2 (Nat.pow_le_pow_right (by norm_num) h))

/-- the hypothesis of `floor_ceiling_too_long` is met: `(1e5000).floor` -/
theorem floor_too_long_witness :
    attrResult sampleEnv .default (.dec (.fin false 1 (5000 : Nat))) "floor" = .error (.py .valueError) :=
  (floor_ceiling_too_long sampleEnv .default _ _ (power_num 5000)).1 (power_long (by norm_num))

example : AttrIs sampleEnv .default (.dec (.fin true 25 (-1))) "floor" (-3) := by
  have := floor_exact sampleEnv .default (.fin true 25 (-1)) (-5/2) (by norm_num [Dec.num, finVal])
  rw [show ⌊(-5/2 : ℚ)⌋ = -3 by rw [Int.floor_eq_iff]; norm_num] at this
  exact this (sample_fits (by decide +kernel))

example : AttrIs sampleEnv .default (.dec (.fin true 25 (-1))) "ceiling" (-2) := by
  have := ceiling_exact sampleEnv .default (.fin true 25 (-1)) (-5/2) (by norm_num [Dec.num, finVal])
  rw [show ⌈(-5/2 : ℚ)⌉ = -2 by rw [Int.ceil_eq_iff]; norm_num] at this
  exact this (sample_fits (by decide +kernel))

example : (Dec.fin false 70 (-1)).isWhole 7 ∧ ¬ ∃ z, (Dec.fin false 75 (-1)).isWhole z := by
  constructor
  · refine ⟨by norm_num [Dec.num, finVal], ?_⟩
    have : (7 : Nat) < doubleLimit := by decide +kernel
    have h2 : ((7 : Nat) : ℚ) < (doubleLimit : ℚ) := by exact_mod_cast this
    simpa using h2
  · rintro ⟨z, hz, -⟩
    norm_num [Dec.num, finVal] at hz
    have h2 : (15 : ℚ) = ((2 * z : Int) : ℚ) := by push_cast; linarith
    have h3 : (15 : Int) = 2 * z := by exact_mod_cast h2
    omega

/-- `" 12.50 "`, `"0x1F"`, `"007"` and `"-5"` -/
example : attrResult sampleEnv .default (.str " 12.50 ") "to_flt" = .ok (.dec (.fin false 125 (-1))) ∧
    attrResult sampleEnv .default (.str "0x1F") "to_flt" = .ok (.dec (.fin false 31 0)) ∧
    attrResult sampleEnv .default (.str "007") "to_flt" = .error (.py .syntaxError) ∧
    attrResult sampleEnv .default (.str "-5") "to_flt" = .ok (.dec .nan) ∧
    attrResult sampleEnv .default (.str "12.") "to_int" = .ok (.dec (.fin false 120 (-1))) ∧
    attrResult sampleEnv .default (.str "12.5") "to_int" = .error .mismatch := by
  refine ⟨?_, ?_, ?_, ?_, ?_, ?_⟩ <;> decide +kernel


end RE
