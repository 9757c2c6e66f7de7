import Verif.Props.Text
import Mathlib.Data.List.Intervals

/-!
# Builtin functions: `$range` and `$split` (C35), `$any` `$all` `$sum` `$min` `$max` `$map` `$filter` (C47)
-/

set_option linter.unusedSimpArgs false

namespace RE

theorem builtin_call (env : Env) (dc : DecCtx) (name : String) (f : Builtin) (args : List Value)
    (hf : builtinNamed name = some f)
    (hv : validateCallValues (builtinType name) args = .ok ()) :
    builtinResult env dc name args =
      checkedResult env (callNodeType (builtinType name)) ((callFn env dc (.builtinFn f) args St.init).1) := by
  have hb : ∃ r as, builtinType name = .function name r (some as) (some (match f with
      | .map | .filter => 2 | .random => 0 | _ => 1)) ∧ builtinValue env .none name = some (.builtinFn f) := by
    unfold builtinNamed at hf
    split at hf <;> simp only [Option.some.injEq, reduceCtorEq] at hf <;> subst hf <;>
      exact ⟨_, _, rfl, rfl⟩
  obtain ⟨r, as, ht, hb⟩ := hb
  refine builtinResult_eq env dc name args (.builtinFn f) hb rfl rfl ?_ ?_ hv
  · rw [ht]
    simp [checkSymbol, DataType.eq, fromValue, except_ok_bind, DataType.compat, DataType.compatArgs,
      DataType.isScalar]
  · rw [ht]; rfl

/-! ## C35: `$range` -/

/-- Specification: the value is the array of these whole numbers. -/
def Value.IsInts (v : Value) (zs : List Int) : Prop := v = .tuple (zs.map fun z => .dec (.ofInt z))

/-- Specification: the arithmetic progression from `a` in steps of `s` up to but excluding `b`: the `i`-th number is
`a + s * i`, and a number of this form is in the list iff it lies before `b` (in the direction of `s`). -/
def IsProgression (a b s : Int) (zs : List Int) : Prop :=
  (∀ i (h : i < zs.length), zs[i] = a + s * i) ∧
  ∀ i : Nat, i < zs.length ↔ (0 < s ∧ a + s * i < b ∨ s < 0 ∧ b < a + s * i)

/-- the numbers of a range -/
def rangeInts (a b s : Int) : List Int :=
  let n : Int := if 0 < s then (b - a + s - 1) / s else if s < 0 then (a - b - s - 1) / (-s) else 0
  (List.range n.toNat).map fun (i : Nat) => a + s * (i : Int)

theorem pyRange_eq (a b s : Int) : pyRange a b s = (rangeInts a b s).map .int := by
  simp [pyRange, rangeInts]

theorem ceil_div_lt {d s : Int} (hs : 0 < s) (i : Nat) : i < ((d + s - 1) / s).toNat ↔ s * i < d := by
  rw [Int.lt_toNat, Int.lt_iff_add_one_le, Int.le_ediv_iff_mul_le hs]
  have : ((i : Int) + 1) * s = s * i + s := by ring
  rw [this]
  omega

theorem rangeInts_progression (a b s : Int) : IsProgression a b s (rangeInts a b s) := by
  refine ⟨fun i h => by simp [rangeInts], fun i => ?_⟩
  simp only [rangeInts, List.length_map, List.length_range]
  by_cases h1 : 0 < s
  · simp only [h1, if_true]
    rw [ceil_div_lt h1]
    constructor
    · intro h; left; exact ⟨trivial, by omega⟩
    · rintro (⟨-, h⟩ | ⟨h, -⟩) <;> omega
  · simp only [h1, if_false]
    by_cases h2 : s < 0
    · simp only [h2, if_true]
      have : a - b - s - 1 = (a - b) + (-s) - 1 := by omega
      rw [this, ceil_div_lt (by omega), neg_mul]
      constructor
      · intro h; right; exact ⟨trivial, by omega⟩
      · rintro (⟨h, -⟩ | ⟨-, h⟩)
        · exact h.elim
        · omega
    · simp [h2]

theorem coerceList_ints (off : TzDb) (zs : List Int) :
    coerceList off (zs.map .int) = zs.map fun z => .dec (.ofInt z) := by
  induction zs with
  | nil => rfl
  | cons z zs ih => simp [coerceList, coerce, ih]

theorem typesOf_decs (zs : List Int) :
    typesOf (zs.map fun z => .dec (.ofInt z)) = .ok (List.replicate zs.length .float) := by
  induction zs with
  | nil => rfl
  | cons z zs ih => simp [typesOf, fromValue, ih, except_ok_bind, List.replicate_succ]

theorem memberType_floats (n : Nat) : memberType (List.replicate n .float) = if n = 0 then .undefined else .float := by
  cases n with
  | zero => rfl
  | succ n =>
    have : List.filter (fun t => !DataType.eq t .null) (List.replicate (n + 1) DataType.float) =
        List.replicate (n + 1) .float := by
      rw [List.filter_eq_self]; intro a ha; rw [List.eq_of_mem_replicate ha]; rfl
    unfold memberType
    rw [this, List.replicate_succ]
    simp [DataType.eq]

theorem checkedResult_ints (env : Env) (zs : List Int) :
    ∃ v, checkedResult env (.array .float true) (.ok (.seq .list (zs.map .int))) = .ok v ∧ v.IsInts zs := by
  refine ⟨.tuple (zs.map fun z => .dec (.ofInt z)), ?_, rfl⟩
  have ht : fromValue (.tuple (zs.map fun z => .dec (.ofInt z))) =
      .ok (.array (if zs.length = 0 then .undefined else .float) true) := by
    simp only [fromValue, typesOf_decs, except_ok_bind, memberType_floats]
  simp only [checkedResult, coerceVerify, coerce, coerceList_ints, ht, except_ok_bind, localise]
  split <;> simp [DataType.compat]

theorem integerArg_whole {d : Dec} {z : Int} (h : d.isWhole z) : integerArg (.dec d) = .ok z := by
  obtain ⟨b, hb, hiff⟩ := isInteger_dec d
  have : b = true := hiff.2 ⟨z, h⟩
  subst this
  simp only [integerArg, hb, except_ok_bind, if_true, toInt_whole h]

theorem truthy_whole {d : Dec} {z : Int} (h : d.isWhole z) : (Value.dec d).truthy = decide (z ≠ 0) := by
  obtain ⟨h, -⟩ := h
  cases d with
  | fin n k e =>
    simp only [Dec.num, Option.some.injEq] at h
    simp only [Value.truthy, Dec.truthy]
    have hE := ten_zpow_pos e
    have : z = 0 ↔ k = 0 := by
      have h0 : z = 0 ↔ finVal n k e = 0 := by rw [h]; exact_mod_cast Iff.rfl
      rw [h0]
      unfold finVal
      cases n <;> simp [hE.ne']
    by_cases hk : k = 0 <;> simp [hk, this]
  | inf b => simp [Dec.num] at h
  | nan => simp [Dec.num] at h

theorem validate_range (a b c : Dec) :
    validateCallValues (builtinType "range") [.dec a] = .ok () ∧
    validateCallValues (builtinType "range") [.dec a, .dec b] = .ok () ∧
    validateCallValues (builtinType "range") [.dec a, .dec b, .dec c] = .ok () := ⟨rfl, rfl, rfl⟩

theorem range_call (env : Env) (dc : DecCtx) (args : List Value) (zs : List Int)
    (hv : validateCallValues (builtinType "range") args = .ok ())
    (h : builtinRange args = .ok (.seq .list (zs.map .int))) :
    ∃ v, builtinResult env dc "range" args = .ok v ∧ v.IsInts zs := by
  rw [builtin_call env dc "range" .range args rfl hv, callFn_basic _ _ _ _ rfl]
  have : (callLogged env dc (.builtinFn .range) args St.init).1 = builtinRange args := by
    simp only [callLogged, callBasic, callBuiltin]
  rw [this, h]
  exact checkedResult_ints env zs

/-- **C35**: `$range(a)` counts from 0 to `a - 1`. -/
theorem range_one (env : Env) (dc : DecCtx) (da : Dec) (a : Int) (ha : da.isWhole a) :
    ∃ v zs, builtinResult env dc "range" [.dec da] = .ok v ∧ v.IsInts zs ∧ IsProgression 0 a 1 zs := by
  obtain ⟨v, h1, h2⟩ := range_call env dc [.dec da] (rangeInts 0 a 1) rfl (by
    simp only [builtinRange, integerArg_whole ha, except_ok_bind, pyRange_eq])
  exact ⟨v, _, h1, h2, rangeInts_progression ..⟩

/-- **C35** (partial): `$range(a, b)` for `b ≠ 0`.  Missing: a stop of 0 counts as absent (`range_zero_stop`). -/
theorem range_two_partial (env : Env) (dc : DecCtx) (da db : Dec) (a b : Int) (ha : da.isWhole a) (hb : db.isWhole b)
    (hb0 : b ≠ 0) :
    ∃ v zs, builtinResult env dc "range" [.dec da, .dec db] = .ok v ∧ v.IsInts zs ∧ IsProgression a b 1 zs := by
  obtain ⟨v, h1, h2⟩ := range_call env dc [.dec da, .dec db] (rangeInts a b 1) rfl (by
    simp only [builtinRange, integerArg_whole ha, integerArg_whole hb, except_ok_bind, pyRange_eq, truthy_whole hb]
    simp [hb0])
  exact ⟨v, _, h1, h2, rangeInts_progression ..⟩

/-- **C35** (partial): `$range(a, b, s)` for `b ≠ 0` and `s ≠ 0`, `s` positive or negative. -/
theorem range_three_partial (env : Env) (dc : DecCtx) (da db ds : Dec) (a b s : Int) (ha : da.isWhole a)
    (hb : db.isWhole b) (hs : ds.isWhole s) (hb0 : b ≠ 0) (hs0 : s ≠ 0) :
    ∃ v zs, builtinResult env dc "range" [.dec da, .dec db, .dec ds] = .ok v ∧ v.IsInts zs ∧
      IsProgression a b s zs := by
  obtain ⟨v, h1, h2⟩ := range_call env dc [.dec da, .dec db, .dec ds] (rangeInts a b s) rfl (by
    simp only [builtinRange, integerArg_whole ha, integerArg_whole hb, integerArg_whole hs, except_ok_bind,
      pyRange_eq, truthy_whole hb, truthy_whole hs]
    simp [hb0, hs0])
  exact ⟨v, _, h1, h2, rangeInts_progression ..⟩

/-- C35 does not hold for a stop of 0: `$range(a, 0)` and `$range(a, 0, s)` count from 0 to `a - 1`, whatever the step,
as `$range(a)` does. -/
theorem range_zero_stop (env : Env) (dc : DecCtx) (da db ds : Dec) (a : Int) (ha : da.isWhole a) (hb : db.isWhole 0) :
    builtinResult env dc "range" [.dec da, .dec db] = builtinResult env dc "range" [.dec da] ∧
    builtinResult env dc "range" [.dec da, .dec db, .dec ds] = builtinResult env dc "range" [.dec da] := by
  have h : ∀ args, validateCallValues (builtinType "range") args = .ok () →
      builtinResult env dc "range" args = checkedResult env (.array .float true) (builtinRange args) := by
    intro args hv
    rw [builtin_call env dc "range" .range args rfl hv, callFn_basic _ _ _ _ rfl]
    rfl
  rw [h _ rfl, h _ rfl, h _ rfl]
  simp only [builtinRange, integerArg_whole ha, except_ok_bind, truthy_whole hb]
  simp

/-- … and a step of 0 counts as a step of 1. -/
theorem range_zero_step (env : Env) (dc : DecCtx) (da db ds : Dec) (a b : Int) (ha : da.isWhole a) (hb : db.isWhole b)
    (hs : ds.isWhole 0) :
    builtinResult env dc "range" [.dec da, .dec db, .dec ds] = builtinResult env dc "range" [.dec da, .dec db] := by
  have h : ∀ args, validateCallValues (builtinType "range") args = .ok () →
      builtinResult env dc "range" args = checkedResult env (.array .float true) (builtinRange args) := by
    intro args hv
    rw [builtin_call env dc "range" .range args rfl hv, callFn_basic _ _ _ _ rfl]
    rfl
  rw [h _ rfl, h _ rfl]
  simp only [builtinRange, integerArg_whole ha, integerArg_whole hb, except_ok_bind, truthy_whole hs]
  simp

/-- **C35**: arguments that are not whole numbers raise a FunctionCallError. -/
theorem range_not_whole (env : Env) (dc : DecCtx) (da : Dec) (ha : ¬ ∃ z, da.isWhole z) :
    builtinResult env dc "range" [.dec da] = .error (.eng .functionCall) := by
  rw [builtin_call env dc "range" .range _ rfl rfl, callFn_basic _ _ _ _ rfl]
  obtain ⟨b, hb, hiff⟩ := isInteger_dec da
  have hb' : b = false := by
    cases b
    · rfl
    · exact absurd (hiff.1 rfl) ha
  subst hb'
  simp only [callLogged, callBasic, callBuiltin, builtinRange, integerArg, hb, except_ok_bind, Bool.false_eq_true,
    if_false, badArg]
  rfl

/-- Witness for C35 (`$range`). -/
theorem range_witness :
    builtinResult sampleEnv .default "range" [.dec (.ofInt 10), .dec (.ofInt 4), .dec (.ofInt (-3))] =
      .ok (.tuple [.dec (.ofInt 10), .dec (.ofInt 7)]) ∧
    builtinResult sampleEnv .default "range" [.dec (.ofInt (-2)), .dec (.ofInt 0)] = .ok (.tuple []) ∧
    (Dec.ofInt 10).isWhole 10 := by
  refine ⟨by decide +kernel, by decide +kernel, ?_⟩
  unfold Dec.isWhole
  constructor
  · simp [Dec.ofInt, Dec.num, finVal]
  · rw [show |((10 : Int) : ℚ)| = ((10 : Nat) : ℚ) by norm_num]
    have : (10 : Nat) < doubleLimit := by decide +kernel
    exact_mod_cast this

/-! ## C35: `$split` -/

/-- Specification: `parts` is what splitting the text `s` at `sep` with at most `k` splits (`none`: no limit) gives:
joined by `sep` they give `s`; a part contains no `sep`, except the last one if the limit was reached. -/
def IsSplit (sep s : List Char) (k : Option Nat) (parts : List (List Char)) : Prop :=
  parts ≠ [] ∧ List.intercalate sep parts = s ∧
  (∀ p ∈ parts.dropLast, ¬ sep <:+: p) ∧
  (∀ n, k = some n → parts.length ≤ n + 1) ∧
  ((∀ n, k = some n → parts.length < n + 1) → ∀ p ∈ parts, ¬ sep <:+: p)

theorem splitSepAux_skip (sep cs : List Char) (k : Option Nat) (skip : Nat) (cur : List Char) :
    splitSepAux sep cs k skip cur = splitSepAux sep (cs.drop skip) k 0 cur := by
  induction cs generalizing skip with
  | nil => simp [splitSepAux]
  | cons c cs ih =>
    cases skip with
    | zero => rfl
    | succ n => rw [splitSepAux, ih]; rfl

theorem no_infix_of_no_start {sep cur rest : List Char} (hsep : sep ≠ [])
    (h : ∀ i, i < cur.length → ¬ sep <+: (cur ++ rest).drop i) : ¬ sep <:+: cur := by
  rintro ⟨a, b, rfl⟩
  have hl : 0 < sep.length := List.length_pos_iff.2 hsep
  refine h a.length (by simp; omega) ?_
  rw [List.append_assoc, List.append_assoc, List.drop_left]
  exact List.prefix_append _ _

theorem splitSepAux_spec (sep : List Char) (hsep : sep ≠ []) (n : Nat) : ∀ (cs : List Char) (k : Option Nat)
    (cur : List Char), cs.length = n →
    (∀ i, i < cur.length → ¬ sep <+: (cur.reverse ++ cs).drop i) →
    IsSplit sep (cur.reverse ++ cs) k (splitSepAux sep cs k 0 cur) ∨
      (k = some 0 ∧ splitSepAux sep cs k 0 cur = [cur.reverse ++ cs]) := by
  induction n using Nat.strongRecOn with
  | ind n ih =>
    intro cs k cur hn hcur
    cases cs with
    | nil =>
      left
      have h0 : ¬ sep <:+: cur.reverse := no_infix_of_no_start (rest := []) hsep (by simpa using hcur)
      refine ⟨by simp [splitSepAux], by simp [splitSepAux], by simp [splitSepAux], by simp [splitSepAux], ?_⟩
      intro _ p hp
      simp only [splitSepAux, List.mem_singleton] at hp
      subst hp; exact h0
    | cons c cs =>
      have hlen : cs.length < n := by rw [← hn]; simp
      by_cases hk : k = some 0
      · right
        refine ⟨hk, ?_⟩
        subst hk
        have : ∀ (cs cur : List Char), splitSepAux sep cs (some 0) 0 cur = [cur.reverse ++ cs] := by
          intro cs
          induction cs with
          | nil => intro cur; simp [splitSepAux]
          | cons c cs ih' =>
            intro cur
            rw [splitSepAux]
            simp only [bne_self_eq_false, Bool.false_and, Bool.false_eq_true, if_false]
            rw [ih']; simp
        exact this _ _
      · rw [splitSepAux]
        by_cases hp : sep.isPrefixOf (c :: cs) = true
        · rw [if_pos (by simp [hk, hp])]
          left
          have hpre : sep <+: c :: cs := List.isPrefixOf_iff_prefix.1 hp
          obtain ⟨rest, hrest⟩ := hpre
          have hd : cs.drop (sep.length - 1) = rest := by
            obtain ⟨x, sep', rfl⟩ := List.exists_cons_of_ne_nil hsep
            simp only [List.cons_append, List.cons.injEq] at hrest
            rw [← hrest.2]; simp
          rw [splitSepAux_skip, hd]
          have hl : rest.length < n := by
            have h3 := congrArg List.length hrest
            have h4 : 0 < sep.length := List.length_pos_iff.2 hsep
            simp only [List.length_append, List.length_cons] at h3
            rw [← hn]; simp only [List.length_cons]; omega
          have h0 : ¬ sep <:+: cur.reverse := no_infix_of_no_start hsep (by simpa using hcur)
          have hj : cur.reverse ++ c :: cs = cur.reverse ++ sep ++ rest := by rw [← hrest]; simp
          rw [hj]
          rcases ih rest.length hl rest (k.map (· - 1)) [] rfl (by simp) with h | ⟨hz, h⟩
          · obtain ⟨h1, h2, h3, h4, h5⟩ := h
            simp only [List.reverse_nil, List.nil_append] at h2
            obtain ⟨q, qs, hq⟩ := List.exists_cons_of_ne_nil h1
            refine ⟨by simp, ?_, ?_, ?_, ?_⟩
            · rw [hq, List.intercalate_cons_cons, ← hq, h2]
            · rw [hq, List.dropLast_cons_cons, ← hq]
              intro p hp
              rcases List.mem_cons.1 hp with rfl | hp
              · exact h0
              · exact h3 p hp
            · intro m hm
              have := h4 (m - 1) (by simp [hm])
              have : m ≠ 0 := fun e => hk (by rw [hm, e])
              simp only [List.length_cons]; omega
            · intro hm p hp
              rcases List.mem_cons.1 hp with rfl | hp
              · exact h0
              · refine h5 ?_ p hp
                intro m hm'
                rcases k with _ | k
                · simp at hm'
                · simp only [Option.map_some, Option.some.injEq] at hm'
                  have := hm k rfl
                  have : k ≠ 0 := fun e => hk (by rw [e])
                  simp only [List.length_cons] at *; omega
          · rw [h]
            simp only [List.reverse_nil, List.nil_append]
            have hk1 : k = some 1 := by
              rcases k with _ | k
              · simp at hz
              · simp only [Option.map_some, Option.some.injEq] at hz
                have : k ≠ 0 := fun e => hk (by rw [e])
                congr 1; omega
            subst hk1
            refine ⟨by simp, ?_, ?_, ?_, ?_⟩
            · rw [List.intercalate_cons_cons, List.intercalate_singleton]
            · simpa using h0
            · simp
            · intro hm
              have := hm 1 rfl
              simp at this
        · rw [if_neg (by simp [hp])]
          have hcur' : ∀ i, i < (c :: cur).length → ¬ sep <+: ((c :: cur).reverse ++ cs).drop i := by
            intro i hi
            simp only [List.reverse_cons, List.append_assoc, List.singleton_append]
            by_cases hi' : i < cur.length
            · exact hcur i hi'
            · simp only [List.length_cons] at hi
              have : i = cur.reverse.length := by simp; omega
              rw [this, List.drop_left]
              intro h
              exact hp (List.isPrefixOf_iff_prefix.2 h)
          have := ih cs.length hlen cs k (c :: cur) rfl hcur'
          simpa using this

theorem splitSep_spec (sep s : List Char) (hsep : sep ≠ []) (k : Option Nat) :
    IsSplit sep s k (splitSep sep s k) := by
  rcases splitSepAux_spec sep hsep s.length s k [] rfl (by simp) with h | ⟨rfl, h⟩
  · simpa [splitSep] using h
  · simp only [List.reverse_nil, List.nil_append] at h
    unfold splitSep
    rw [h]
    refine ⟨by simp, by simp, by simp, by simp, ?_⟩
    intro hm
    have := hm 0 rfl
    simp at this

/-- Specification: the value is the array of these strings. -/
def Value.IsStrings (v : Value) (ss : List (List Char)) : Prop := v = .tuple (ss.map fun s => .str (String.ofList s))

theorem checkedResult_strs (env : Env) (ss : List (List Char)) :
    ∃ v, checkedResult env (.array .string true) (.ok (.tuple (ss.map fun s => .str (String.ofList s)))) = .ok v ∧
      v.IsStrings ss := by
  refine ⟨_, ?_, rfl⟩
  have hc : coerce env.utcoffset (.tuple (ss.map fun s => .str (String.ofList s))) =
      .tuple (ss.map fun s => .str (String.ofList s)) := by
    simp only [coerce, coerceList_eq_map, List.map_map]; rfl
  have ht : ∃ t, fromValue (.tuple (ss.map fun s => .str (String.ofList s))) = .ok (.array t true) ∧
      DataType.compat t .string = true := by
    have : typesOf (ss.map fun s => .str (String.ofList s)) = .ok (List.replicate ss.length .string) := by
      clear hc
      induction ss with
      | nil => rfl
      | cons z zs ih => simp [typesOf, fromValue, ih, except_ok_bind, List.replicate_succ]
    simp only [fromValue, this, except_ok_bind]
    refine ⟨_, rfl, ?_⟩
    cases ss.length with
    | zero => rfl
    | succ n =>
      have : List.filter (fun t => !DataType.eq t .null) (List.replicate (n + 1) DataType.string) =
          List.replicate (n + 1) .string := by
        rw [List.filter_eq_self]; intro a ha; rw [List.eq_of_mem_replicate ha]; rfl
      unfold memberType
      rw [this, List.replicate_succ]
      simp [DataType.eq, DataType.compat]
  obtain ⟨t, ht, hcm⟩ := ht
  simp only [checkedResult, coerceVerify, hc, ht, except_ok_bind, localise, DataType.compat, hcm, if_true]

theorem split_call (env : Env) (dc : DecCtx) (args : List Value) (ss : List (List Char))
    (hv : validateCallValues (builtinType "split") args = .ok ())
    (h : builtinSplit args = .ok (.tuple (ss.map fun s => .str (String.ofList s)))) :
    ∃ v, builtinResult env dc "split" args = .ok v ∧ v.IsStrings ss := by
  rw [builtin_call env dc "split" .split args rfl hv, callFn_basic _ _ _ _ rfl]
  have : (callLogged env dc (.builtinFn .split) args St.init).1 = builtinSplit args := by
    simp only [callLogged, callBasic, callBuiltin]
  rw [this, h]
  exact checkedResult_strs env ss

/-- **C35**: `$split(s, sep)`. -/
theorem split_separator (env : Env) (dc : DecCtx) (s sep : String) (hsep : sep ≠ "") :
    ∃ v parts, builtinResult env dc "split" [.str s, .str sep] = .ok v ∧ v.IsStrings parts ∧
      IsSplit sep.toList s.toList none parts := by
  have hne : sep.toList ≠ [] := by
    intro h; apply hsep; rw [← String.ofList_toList (s := sep), h]
  obtain ⟨v, h1, h2⟩ := split_call env dc [.str s, .str sep] (splitSep sep.toList s.toList none) rfl (by
    simp only [builtinSplit, except_ok_bind]
    simp [hne, except_ok_bind])
  exact ⟨v, _, h1, h2, splitSep_spec _ _ hne _⟩

theorem isNatural_dec {d : Dec} {n : Nat} (h : d.isNat n) : isNatural (.dec d) = .ok true := by
  obtain ⟨b, hb, hiff⟩ := isInteger_dec d
  have : b = true := hiff.2 ⟨_, h⟩
  subst this
  simp only [isNatural, hb, except_ok_bind, if_true, isNegative_whole h]
  simp

/-- **C35**: `$split(s, sep, k)`: at most `k + 1` parts. -/
theorem split_limit (env : Env) (dc : DecCtx) (s sep : String) (hsep : sep ≠ "") (d : Dec) (k : Nat) (hk : d.isNat k) :
    ∃ v parts, builtinResult env dc "split" [.str s, .str sep, .dec d] = .ok v ∧ v.IsStrings parts ∧
      IsSplit sep.toList s.toList (some k) parts := by
  have hne : sep.toList ≠ [] := by
    intro h; apply hsep; rw [← String.ofList_toList (s := sep), h]
  obtain ⟨v, h1, h2⟩ := split_call env dc [.str s, .str sep, .dec d] (splitSep sep.toList s.toList (some k)) rfl (by
    simp only [builtinSplit, except_ok_bind, isNatural_dec hk, if_true, toInt_whole hk, Int.toNat_natCast]
    simp [hne, except_ok_bind])
  exact ⟨v, _, h1, h2, splitSep_spec _ _ hne _⟩

/-- **C35**: an empty separator raises a FunctionCallError. -/
theorem split_empty_separator (env : Env) (dc : DecCtx) (s : String) :
    builtinResult env dc "split" [.str s, .str ""] = .error (.eng .functionCall) := by
  rw [builtin_call env dc "split" .split _ rfl rfl, callFn_basic _ _ _ _ rfl]
  simp [callLogged, callBasic, callBuiltin, builtinSplit, except_ok_bind, checkedResult]
  rfl

/-- Specification: `words` are the maximal runs of non-blank characters of `s`. -/
def IsWords : List (List Char) → List Char → Prop
  | [], s => ∀ c ∈ s, isPySpace c = true
  | w :: ws, s => ∃ gap rest, s = gap ++ w ++ rest ∧ (∀ c ∈ gap, isPySpace c = true) ∧ w ≠ [] ∧
      (∀ c ∈ w, isPySpace c = false) ∧ (∀ c, rest.head? = some c → isPySpace c = true) ∧ IsWords ws rest

theorem splitWsAux_spec (cs : List Char) :
    IsWords (splitWsAux cs none none) cs ∧
    ∀ cur : List Char, (∀ c ∈ cur, isPySpace c = false) → ∃ w rest words,
      splitWsAux cs none (some cur) = (cur.reverse ++ w) :: words ∧ cs = w ++ rest ∧
      (∀ c ∈ w, isPySpace c = false) ∧ (∀ c, rest.head? = some c → isPySpace c = true) ∧ IsWords words rest := by
  induction cs with
  | nil =>
    refine ⟨by simp [splitWsAux, IsWords], fun cur hcur => ⟨[], [], [], by simp [splitWsAux], rfl, by simp, by simp, ?_⟩⟩
    simp [IsWords]
  | cons c cs ih =>
    obtain ⟨ih1, ih2⟩ := ih
    by_cases hc : isPySpace c = true
    · constructor
      · simp only [splitWsAux, hc, if_true]
        cases hw : splitWsAux cs none none with
        | nil =>
          rw [hw] at ih1
          intro x hx
          rcases List.mem_cons.1 hx with rfl | hx
          · exact hc
          · exact ih1 x hx
        | cons w ws =>
          rw [hw] at ih1
          obtain ⟨gap, rest, h1, h2, h3⟩ := ih1
          refine ⟨c :: gap, rest, by rw [h1]; simp, ?_, h3⟩
          intro x hx
          rcases List.mem_cons.1 hx with rfl | hx
          · exact hc
          · exact h2 x hx
      · intro cur hcur
        refine ⟨[], c :: cs, splitWsAux cs none none, by simp [splitWsAux, hc], rfl, by simp, by simpa using hc, ?_⟩
        have : IsWords (splitWsAux cs none none) (c :: cs) := by
          cases hw : splitWsAux cs none none with
          | nil =>
            rw [hw] at ih1
            intro x hx
            rcases List.mem_cons.1 hx with rfl | hx
            · exact hc
            · exact ih1 x hx
          | cons w ws =>
            rw [hw] at ih1
            obtain ⟨gap, rest, h1, h2, h3⟩ := ih1
            refine ⟨c :: gap, rest, by rw [h1]; simp, ?_, h3⟩
            intro x hx
            rcases List.mem_cons.1 hx with rfl | hx
            · exact hc
            · exact h2 x hx
        exact this
    · have hc' : isPySpace c = false := by simpa using hc
      constructor
      · obtain ⟨w, rest, words, h1, h2, h3, h4, h5⟩ := ih2 [c] (by simpa using hc')
        simp only [splitWsAux, hc', Bool.false_eq_true, if_false]
        have : (none == some (0 : Nat)) = false := rfl
        simp only [this, Bool.false_eq_true, if_false, Option.map_none, h1]
        refine ⟨[], rest, by rw [h2]; simp, by simp, by simp, ?_, h4, h5⟩
        intro x hx
        simp only [List.reverse_cons, List.reverse_nil, List.nil_append, List.singleton_append, List.mem_cons] at hx
        rcases hx with rfl | hx
        · exact hc'
        · exact h3 x hx
      · intro cur hcur
        obtain ⟨w, rest, words, h1, h2, h3, h4, h5⟩ := ih2 (c :: cur) (by
          intro x hx
          rcases List.mem_cons.1 hx with rfl | hx
          · exact hc'
          · exact hcur x hx)
        refine ⟨c :: w, rest, words, ?_, by rw [h2]; rfl, ?_, h4, h5⟩
        · simp only [splitWsAux, hc', Bool.false_eq_true, if_false, h1]
          simp
        · intro x hx
          rcases List.mem_cons.1 hx with rfl | hx
          · exact hc'
          · exact h3 x hx

/-- **C35**: `$split(s)` gives the words of the text. -/
theorem split_words (env : Env) (dc : DecCtx) (s : String) :
    ∃ v words, builtinResult env dc "split" [.str s] = .ok v ∧ v.IsStrings words ∧ IsWords words s.toList := by
  obtain ⟨v, h1, h2⟩ := split_call env dc [.str s] (splitWs s.toList none) rfl (by
    simp only [builtinSplit, except_ok_bind])
  exact ⟨v, _, h1, h2, (splitWsAux_spec s.toList).1⟩

/-- Witness for C35 (`$split`). -/
theorem split_witness :
    builtinResult sampleEnv .default "split" [.str "a, b,, c", .str ","] =
      .ok (.tuple [.str "a", .str " b", .str "", .str " c"]) ∧
    builtinResult sampleEnv .default "split" [.str "a, b,, c", .str ",", .dec (.ofInt 1)] =
      .ok (.tuple [.str "a", .str " b,, c"]) ∧
    builtinResult sampleEnv .default "split" [.str " a  bc "] = .ok (.tuple [.str "a", .str "bc"]) := by
  decide +kernel

/-! ## C47: `$any`, `$all` -/

theorem builtin_simple (env : Env) (dc : DecCtx) (name : String) (f : Builtin) (args : List Value)
    (hf : builtinNamed name = some f) (hh : isHigher (.builtinFn f) = false)
    (hv : validateCallValues (builtinType name) args = .ok ()) :
    builtinResult env dc name args =
      checkedResult env (callNodeType (builtinType name)) (callBuiltin env dc f args) := by
  rw [builtin_call env dc name f args hf hv, callFn_basic _ _ _ _ hh]
  rfl

theorem fromValue_tuple {xs : List Value} {t : DataType} (h : fromValue (.tuple xs) = .ok t) :
    ∃ m b, t = .array m b := by
  simp only [fromValue] at h
  rcases hx : typesOf xs with e | ts
  · rw [hx] at h; simp [bind, Except.bind] at h
  · rw [hx] at h
    simp only [except_ok_bind, Except.ok.injEq] at h
    exact ⟨_, _, h.symm⟩

theorem validate_array (name : String) (r : DataType) (k : String) (xs : List Value) (t : DataType)
    (hn : builtinType name = .function k r (some [.anyArray]) (some 1))
    (h : fromValue (.tuple xs) = .ok t) :
    validateCallValues (builtinType name) [.tuple xs] = .ok () := by
  obtain ⟨m, b, rfl⟩ := fromValue_tuple h
  rw [hn]
  simp only [validateCallValues, validateArgs, h, except_ok_bind]
  have : DataType.compat m .undefined = true := by unfold DataType.compat; cases m <;> rfl
  simp [DataType.anyArray, DataType.compat, this]

/-- **C47**: `$any(xs)` is the disjunction of the truthiness of the members, `$all(xs)` the conjunction. -/
theorem any_all (env : Env) (dc : DecCtx) (xs : List Value) (t : DataType)
    (h : fromValue (.tuple xs) = .ok t) :
    (∃ b, builtinResult env dc "any" [.tuple xs] = .ok (.bool b) ∧
      (b = true ↔ ∃ x ∈ xs, x.truthy = true)) ∧
    (∃ b, builtinResult env dc "all" [.tuple xs] = .ok (.bool b) ∧
      (b = true ↔ ∀ x ∈ xs, x.truthy = true)) := by
  constructor
  · refine ⟨xs.any Value.truthy, ?_, by simp⟩
    rw [builtin_simple env dc "any" .any _ rfl rfl (validate_array "any" .boolean "any" xs t rfl h)]
    exact checkedResult_bool env _ _ rfl
  · refine ⟨xs.all Value.truthy, ?_, by simp⟩
    rw [builtin_simple env dc "all" .all _ rfl rfl (validate_array "all" .boolean "all" xs t rfl h)]
    exact checkedResult_bool env _ _ rfl

/-! ## C47: `$sum`, `$min`, `$max` on arrays of FLOATs -/

/-- Specification: the array of these numbers. -/
def Value.floats (ds : List Dec) : Value := .tuple (ds.map .dec)

theorem typesOf_floats (ds : List Dec) : typesOf (ds.map .dec) = .ok (List.replicate ds.length .float) := by
  induction ds with
  | nil => rfl
  | cons z zs ih => simp [typesOf, fromValue, ih, except_ok_bind, List.replicate_succ]

theorem validate_floats (name : String) (r : DataType) (k : String) (ds : List Dec)
    (hn : builtinType name = .function k r (some [.array .float true]) (some 1)) :
    validateCallValues (builtinType name) [.floats ds] = .ok () := by
  rw [hn]
  have : fromValue (.floats ds) = .ok (.array (if ds.length = 0 then .undefined else .float) true) := by
    simp only [Value.floats, fromValue, typesOf_floats, except_ok_bind, memberType_floats]
  have hc : DataType.compat (.array (if ds.length = 0 then .undefined else .float) true) (.array .float true) = true := by
    split <;> rfl
  simp only [validateCallValues, validateArgs, this, except_ok_bind, hc]
  rfl

theorem checkedResult_dec (env : Env) (d : Dec) : checkedResult env .float (.ok (.dec d)) = .ok (.dec d) := by
  simp [checkedResult, coerceVerify, coerce, fromValue, localise, except_ok_bind, DataType.compat]

/-- Specification: adding the numbers up from the left with the `+` operator, starting with 0. -/
def addUp (env : Env) (dc : DecCtx) : Value → List Dec → Except Err Value
  | acc, [] => .ok acc
  | acc, d :: ds => do
    let acc ← binResult env dc .add acc (.dec d)
    addUp env dc acc ds

theorem pySum_decs (env : Env) (dc : DecCtx) (ds : List Dec) (a : Dec) :
    ((ds.map Value.dec).foldlM (fun acc x => numOp env dc .add acc x) (.dec a)) = addUp env dc (.dec a) ds ∧
    ∀ v, addUp env dc (.dec a) ds = .ok v → ∃ d, v = .dec d := by
  induction ds generalizing a with
  | nil => exact ⟨rfl, fun v h => ⟨a, by simpa [addUp] using h.symm⟩⟩
  | cons d ds ih =>
    simp only [List.map_cons, List.foldlM_cons, addUp, binResult_add_dec]
    have : numOp env dc .add (.dec a) (.dec d) = ((decAdd dc a d).mapError Err.ofDec).map Value.dec := rfl
    rw [this]
    rcases decAdd dc a d with e | x
    · exact ⟨rfl, fun v h => by simp [Except.mapError, Except.map, bind, Except.bind] at h⟩
    · exact ih x

/-- **C47**: `$sum` adds the members up from the left, starting with 0; an error is reported as FunctionCallError. -/
theorem sum_is_addition (env : Env) (dc : DecCtx) (ds : List Dec) :
    match addUp env dc (.dec (.ofInt 0)) ds, builtinResult env dc "sum" [.floats ds] with
    | .ok v, r => r = .ok v
    | .error _, r => r = .error (.eng .functionCall) := by
  rw [builtin_simple env dc "sum" .sum _ rfl rfl (validate_floats "sum" .float "sum" ds rfl)]
  have h0 : callBuiltin env dc .sum [.floats ds] = pySum env dc (ds.map .dec) := rfl
  rw [h0]
  cases ds with
  | nil => rfl
  | cons d ds =>
    have h1 : pySum env dc ((d :: ds).map .dec) = addUp env dc (.dec (.ofInt 0)) (d :: ds) := by
      simp only [pySum, List.map_cons, List.foldlM_cons, addUp, binResult_add_dec]
      have : numOp env dc .add (.int 0) (.dec d) = ((decAdd dc (.ofInt 0) d).mapError Err.ofDec).map Value.dec := rfl
      rw [this]
      rcases decAdd dc (.ofInt 0) d with e | x
      · rfl
      · exact (pySum_decs env dc ds x).1
    rw [h1]
    have h2 := (pySum_decs env dc (d :: ds) (.ofInt 0)).2
    rcases hx : addUp env dc (.dec (.ofInt 0)) (d :: ds) with e | v
    · rfl
    · obtain ⟨x, rfl⟩ := h2 v hx
      exact checkedResult_dec env x

/-- **C47**: `$sum([])` is 0. -/
theorem sum_empty (env : Env) (dc : DecCtx) :
    builtinResult env dc "sum" [.tuple []] = .ok (.dec (.ofInt 0)) := sum_is_addition env dc []

theorem pyLess_dec (off : TzDb) (gt : Bool) (a b : Dec) (o : Ordering) (h : decCmp a b = some o) :
    pyLess off gt (.dec a) (.dec b) = .ok ((if gt then CmpOp.gt else CmpOp.lt).holds o) := by
  unfold pyLess
  simp only [Value.asNumber, h]

theorem binResult_cmp_dec (env : Env) (dc : DecCtx) (op : CmpOp) (a b : Dec) (o : Ordering)
    (h : decCmp a b = some o) : binResult env dc (.cmp op) (.dec a) (.dec b) = .ok (.bool (op.holds o)) := by
  rw [binResult_cmp]
  unfold opCmpValues
  simp [pyCmp, decCmpOp, h, Value.pyType, Except.map]

theorem decCmp_le_trans {a b c : Dec} {o p : Ordering} (ho : decCmp a b = some o) (hp : decCmp b c = some p)
    (h1 : o ≠ .gt) (h2 : p ≠ .gt) : ∃ q, decCmp a c = some q ∧ q ≠ .gt := by
  cases o with
  | gt => exact absurd rfl h1
  | eq => exact ⟨p, by rw [decCmp_eq_left ho, hp], h2⟩
  | lt =>
    cases p with
    | gt => exact absurd rfl h2
    | lt => exact ⟨.lt, decCmp_trans_lt ho hp, by simp⟩
    | eq =>
      have h3 : decCmp c b = some .eq := by rw [decCmp_swap, hp]; rfl
      have h4 : decCmp b a = some .gt := by rw [decCmp_swap, ho]; rfl
      have h5 : decCmp c a = some .gt := by rw [decCmp_eq_left h3, h4]
      exact ⟨.lt, by rw [decCmp_swap, h5]; rfl, by simp⟩

/-- the extreme of a list of numbers bounds all of them -/
theorem pyExtreme_decs (off : TzDb) (gt : Bool) (ds : List Dec) (hn : ∀ d ∈ ds, d ≠ .nan) (cur : Dec)
    (hc : cur ≠ .nan) :
    ∃ m, (ds.map Value.dec).foldlM (fun cur y => do
      if ← pyLess off gt y cur then .ok y else .ok cur) (.dec cur) = (.ok (.dec m) : Except Err Value) ∧
      m ∈ cur :: ds ∧ ∀ d ∈ cur :: ds, ∃ o, decCmp m d = some o ∧ o ≠ if gt then .lt else .gt := by
  induction ds generalizing cur with
  | nil =>
    refine ⟨cur, rfl, by simp, ?_⟩
    intro d hd
    simp only [List.mem_singleton] at hd
    subst hd
    obtain ⟨o, ho⟩ := decCmp_total hc hc
    have h1 := decCmp_swap d d
    rw [ho] at h1
    refine ⟨o, ho, ?_⟩
    clear ho
    cases o <;> cases gt <;> simp at h1 ⊢
  | cons y ys ih =>
    have hy : y ≠ .nan := hn y (by simp)
    obtain ⟨o, ho⟩ := decCmp_total hy hc
    have hco : decCmp cur y = some o.swap := by rw [decCmp_swap, ho]; rfl
    rw [List.map_cons, List.foldlM_cons, pyLess_dec off gt y cur o ho, except_ok_bind]
    by_cases hl : (if gt then CmpOp.gt else CmpOp.lt).holds o = true
    · rw [if_pos hl, except_ok_bind]
      obtain ⟨m, h1, h2, h3⟩ := ih (fun d hd => hn d (by simp [hd])) y hy
      refine ⟨m, h1, List.mem_cons_of_mem _ h2, ?_⟩
      intro d hd
      rcases List.mem_cons.1 hd with rfl | hd
      · obtain ⟨p, hp, hp'⟩ := h3 y (by simp)
        cases gt with
        | false =>
          have : o = .lt := by simpa [CmpOp.holds] using hl
          subst this
          exact decCmp_le_trans hp ho hp' (by simp)
        | true =>
          have : o = .gt := by simpa [CmpOp.holds] using hl
          subst this
          have hp2 : decCmp y m = some p.swap := by rw [decCmp_swap, hp]; rfl
          obtain ⟨q, hq, hq'⟩ := decCmp_le_trans hco hp2 (by simp) (by cases p <;> simp_all)
          refine ⟨q.swap, by rw [decCmp_swap, hq]; rfl, ?_⟩
          cases q <;> simp_all
      · exact h3 d hd
    · rw [if_neg hl, except_ok_bind]
      obtain ⟨m, h1, h2, h3⟩ := ih (fun d hd => hn d (by simp [hd])) cur hc
      refine ⟨m, h1, ?_, ?_⟩
      · rcases List.mem_cons.1 h2 with rfl | h2
        · simp
        · simp [h2]
      · intro d hd
        rcases List.mem_cons.1 hd with rfl | hd
        · exact h3 d (by simp)
        · rcases List.mem_cons.1 hd with rfl | hd
          · obtain ⟨p, hp, hp'⟩ := h3 cur (by simp)
            cases gt with
            | false =>
              refine decCmp_le_trans hp hco hp' ?_
              cases o <;> simp_all [CmpOp.holds]
            | true =>
              have hp2 : decCmp cur m = some p.swap := by rw [decCmp_swap, hp]; rfl
              obtain ⟨q, hq, hq'⟩ := decCmp_le_trans ho hp2 (by cases o <;> simp_all [CmpOp.holds])
                (by cases p <;> simp_all)
              refine ⟨q.swap, by rw [decCmp_swap, hq]; rfl, ?_⟩
              cases q <;> simp_all
          · exact h3 d (by simp [hd])

/-- **C47**: `$min` returns a member that is `<=` every member, for a non-empty array of FLOATs other than NaN. -/
theorem min_lower_bound (env : Env) (dc : DecCtx) (ds : List Dec) (hne : ds ≠ []) (hn : ∀ d ∈ ds, d ≠ .nan) :
    ∃ m ∈ ds, builtinResult env dc "min" [.floats ds] = .ok (.dec m) ∧
      ∀ d ∈ ds, binResult env dc (.cmp .le) (.dec m) (.dec d) = .ok (.bool true) := by
  obtain ⟨c, cs, rfl⟩ := List.exists_cons_of_ne_nil hne
  obtain ⟨m, h1, h2, h3⟩ := pyExtreme_decs env.utcoffset false cs (fun d hd => hn d (by simp [hd])) c (hn c (by simp))
  refine ⟨m, h2, ?_, ?_⟩
  · rw [builtin_simple env dc "min" .min _ rfl rfl (validate_floats "min" .float "min" _ rfl)]
    have h0 : callBuiltin env dc .min [.floats (c :: cs)] = pyExtreme env.utcoffset false ((c :: cs).map .dec) := rfl
    rw [h0, List.map_cons, pyExtreme, h1]
    exact checkedResult_dec env m
  · intro d hd
    obtain ⟨o, ho, ho'⟩ := h3 d hd
    rw [binResult_cmp_dec env dc .le m d o ho]
    cases o <;> simp_all [CmpOp.holds]

/-- **C47**: `$max` returns a member that is `>=` every member, for a non-empty array of FLOATs other than NaN. -/
theorem max_upper_bound (env : Env) (dc : DecCtx) (ds : List Dec) (hne : ds ≠ []) (hn : ∀ d ∈ ds, d ≠ .nan) :
    ∃ m ∈ ds, builtinResult env dc "max" [.floats ds] = .ok (.dec m) ∧
      ∀ d ∈ ds, binResult env dc (.cmp .ge) (.dec m) (.dec d) = .ok (.bool true) := by
  obtain ⟨c, cs, rfl⟩ := List.exists_cons_of_ne_nil hne
  obtain ⟨m, h1, h2, h3⟩ := pyExtreme_decs env.utcoffset true cs (fun d hd => hn d (by simp [hd])) c (hn c (by simp))
  refine ⟨m, h2, ?_, ?_⟩
  · rw [builtin_simple env dc "max" .max _ rfl rfl (validate_floats "max" .float "max" _ rfl)]
    have h0 : callBuiltin env dc .max [.floats (c :: cs)] = pyExtreme env.utcoffset true ((c :: cs).map .dec) := rfl
    rw [h0, List.map_cons, pyExtreme, h1]
    exact checkedResult_dec env m
  · intro d hd
    obtain ⟨o, ho, ho'⟩ := h3 d hd
    rw [binResult_cmp_dec env dc .ge m d o ho]
    cases o <;> simp_all [CmpOp.holds]

/-- **C47**: `$min([])` and `$max([])` raise a FunctionCallError. -/
theorem min_max_empty (env : Env) (dc : DecCtx) :
    builtinResult env dc "min" [.tuple []] = .error (.eng .functionCall) ∧
    builtinResult env dc "max" [.tuple []] = .error (.eng .functionCall) := by
  rw [show Value.tuple [] = Value.floats [] from rfl]
  constructor
  · rw [builtin_simple env dc "min" .min _ rfl rfl (validate_floats "min" .float "min" [] rfl)]; rfl
  · rw [builtin_simple env dc "max" .max _ rfl rfl (validate_floats "max" .float "max" [] rfl)]; rfl

/-! ## C47: `$map`, `$filter` -/

theorem mapCalls_ok (env : Env) (dc : DecCtx) (f : Value) (xs : List Value) (s s' : St) (ys : List Value)
    (h : mapCalls env dc f xs s = (.ok ys, s')) :
    List.Forall₂ (fun x y => callBasic env dc f [x] = .ok y) xs ys := by
  induction xs generalizing s ys s' with
  | nil =>
    simp only [mapCalls, M.pure_apply, Prod.mk.injEq, Except.ok.injEq] at h
    rw [← h.1]; exact .nil
  | cons x xs ih =>
    simp only [mapCalls, M.bind_eq_ok, M.pure_eq_ok, callLogged] at h
    obtain ⟨y, s1, h1, zs, s2, h2, h3, h4⟩ := h
    simp only [Prod.mk.injEq] at h1
    subst h3
    exact .cons h1.1 (ih _ _ _ h2)

theorem filterCalls_ok (env : Env) (dc : DecCtx) (f : Value) (xs : List Value) (s s' : St) (ys : List Value)
    (h : filterCalls env dc f xs s = (.ok ys, s')) :
    ∃ rs, List.Forall₂ (fun x r => callBasic env dc f [x] = .ok r) xs rs ∧
      ys = ((xs.zip rs).filter fun p => p.2.truthy).map Prod.fst := by
  induction xs generalizing s ys s' with
  | nil =>
    simp only [filterCalls, M.pure_apply, Prod.mk.injEq, Except.ok.injEq] at h
    exact ⟨[], .nil, by rw [← h.1]; rfl⟩
  | cons x xs ih =>
    simp only [filterCalls, M.bind_eq_ok, M.pure_eq_ok, callLogged] at h
    obtain ⟨y, s1, h1, zs, s2, h2, h3, h4⟩ := h
    simp only [Prod.mk.injEq] at h1
    obtain ⟨rs, h5, h6⟩ := ih _ _ _ h2
    refine ⟨y :: rs, .cons h1.1 h5, ?_⟩
    rw [← h3, h6]
    by_cases hy : y.truthy = true <;> simp [hy]

theorem checkedResult_ok {env : Env} {rt : DataType} {x : Except Err Value} {v : Value}
    (h : checkedResult env rt x = .ok v) :
    ∃ r, x = .ok r ∧ v = localise env (coerce env.utcoffset r) := by
  rcases x with e | r
  · simp [checkedResult] at h
  · refine ⟨r, rfl, ?_⟩
    simp only [checkedResult, coerceVerify] at h
    rcases h1 : fromValue (coerce env.utcoffset r) with e | t
    · rw [h1] at h; simp [bind, Except.bind] at h
    · rw [h1] at h
      simp only [except_ok_bind] at h
      rcases h2 : fromValue (localise env (coerce env.utcoffset r)) with e | t
      · rw [h2] at h; simp [bind, Except.bind] at h
      · rw [h2] at h
        simp only [except_ok_bind] at h
        split at h
        · simpa using h.symm
        · simp at h

theorem builtin_ok {env : Env} {dc : DecCtx} {name : String} {f : Builtin} {args : List Value} {v : Value}
    (hf : builtinNamed name = some f) (h : builtinResult env dc name args = .ok v) :
    ∃ r, (callFn env dc (.builtinFn f) args St.init).1 = .ok r ∧ v = localise env (coerce env.utcoffset r) := by
  rcases hv : validateCallValues (builtinType name) args with e | u
  · have hb : ∃ r as, builtinType name = .function name r (some as) (some (match f with
        | .map | .filter => 2 | .random => 0 | _ => 1)) ∧ builtinValue env .none name = some (.builtinFn f) := by
      unfold builtinNamed at hf
      split at hf <;> simp only [Option.some.injEq, reduceCtorEq] at hf <;> subst hf <;>
        exact ⟨_, _, rfl, rfl⟩
    obtain ⟨r, as, ht, hb⟩ := hb
    rw [builtinResult_invalid env dc name args (.builtinFn f) hb rfl rfl (by
      rw [ht]
      simp [checkSymbol, DataType.eq, fromValue, except_ok_bind, DataType.compat, DataType.compatArgs,
        DataType.isScalar]) (by rw [ht]; rfl) e hv] at h
    simp at h
  · rw [builtin_call env dc name f args hf hv] at h
    exact checkedResult_ok h

/-- **C47**: `$map(f, xs)` is the array of the (converted) results of calling `f` on each member, in order. -/
theorem map_in_order (env : Env) (dc : DecCtx) (f : Value) (xs : List Value) (v : Value)
    (h : builtinResult env dc "map" [f, .tuple xs] = .ok v) :
    ∃ rs, List.Forall₂ (fun x r => callBasic env dc f [x] = .ok r) xs rs ∧
      v = .tuple (rs.map (coerce env.utcoffset)) := by
  obtain ⟨r, h1, h2⟩ := builtin_ok (f := .map) rfl h
  have h3 : ∃ ys s', mapCalls env dc f xs { St.init with log := St.init.log ++ [.call (.builtinFn .map) [f, .tuple xs]] }
      = (.ok ys, s') ∧ r = .tuple ys := by
    simp only [callFn, M.bind_apply, M.modify_apply, M.lift_apply, Value.members] at h1
    rcases hm : mapCalls env dc f xs { St.init with log := St.init.log ++ [.call (.builtinFn .map) [f, .tuple xs]] }
      with ⟨e | ys, s'⟩
    · rw [hm] at h1; simp at h1
    · rw [hm] at h1
      exact ⟨ys, s', rfl, by simpa [M.pure_apply] using h1.symm⟩
  obtain ⟨ys, s', h3, rfl⟩ := h3
  refine ⟨ys, mapCalls_ok env dc f xs _ _ _ h3, ?_⟩
  rw [h2]
  simp only [coerce, coerceList_eq_map, localise]

/-- **C47**: `$filter(f, xs)` is the sub-sequence of the members on which `f` is truthy, in order (converted, which
changes nothing if they are values of the rule language). -/
theorem filter_subsequence (env : Env) (dc : DecCtx) (f : Value) (xs : List Value) (v : Value)
    (h : builtinResult env dc "filter" [f, .tuple xs] = .ok v) :
    ∃ rs ys, List.Forall₂ (fun x r => callBasic env dc f [x] = .ok r) xs rs ∧
      v = .tuple (ys.map (coerce env.utcoffset)) ∧
      ys = ((xs.zip rs).filter fun p => p.2.truthy).map Prod.fst ∧ ys.Sublist xs ∧
      ((∀ x ∈ xs, coerce env.utcoffset x = x) → v = .tuple ys) := by
  obtain ⟨r, h1, h2⟩ := builtin_ok (f := .filter) rfl h
  have h3 : ∃ ys s', filterCalls env dc f xs
      { St.init with log := St.init.log ++ [.call (.builtinFn .filter) [f, .tuple xs]] }
      = (.ok ys, s') ∧ r = .tuple ys := by
    simp only [callFn, M.bind_apply, M.modify_apply, M.lift_apply, Value.members] at h1
    rcases hm : filterCalls env dc f xs
      { St.init with log := St.init.log ++ [.call (.builtinFn .filter) [f, .tuple xs]] }
      with ⟨e | ys, s'⟩
    · rw [hm] at h1; simp at h1
    · rw [hm] at h1
      exact ⟨ys, s', rfl, by simpa [M.pure_apply] using h1.symm⟩
  obtain ⟨ys, s', h3, rfl⟩ := h3
  obtain ⟨rs, h4, h5⟩ := filterCalls_ok env dc f xs _ _ _ h3
  have h6 : v = .tuple (ys.map (coerce env.utcoffset)) := by
    rw [h2]; simp only [coerce, coerceList_eq_map, localise]
  have h7 : ys.Sublist xs := by
    rw [h5]
    have := (List.filter_sublist (l := xs.zip rs) (p := fun p => p.2.truthy)).map Prod.fst
    rwa [List.map_fst_zip (by rw [h4.length_eq])] at this
  refine ⟨rs, ys, h4, h6, h5, h7, fun hx => ?_⟩
  rw [h6]
  congr 2
  conv_rhs => rw [← List.map_id ys]
  exact List.map_congr_left fun x hxy => hx x (h7.subset hxy)

/-- Witness for C47. -/
theorem aggregate_witness :
    builtinResult sampleEnv .default "any" [.tuple [.str "", .dec (.ofInt 2)]] = .ok (.bool true) ∧
    builtinResult sampleEnv .default "all" [.tuple [.str "", .dec (.ofInt 2)]] = .ok (.bool false) ∧
    builtinResult sampleEnv .default "sum" [.floats [.ofInt 3, .fin false 5 (-1)]] = .ok (.dec (.fin false 35 (-1))) ∧
    builtinResult sampleEnv .default "min" [.floats [.ofInt 3, .ofInt (-4), .ofInt 5]] = .ok (.dec (.ofInt (-4))) ∧
    builtinResult sampleEnv .default "max" [.floats [.ofInt 3, .ofInt (-4), .ofInt 5]] = .ok (.dec (.ofInt 5)) ∧
    builtinResult sampleEnv .default "map" [.builtinFn .abs, .floats [.ofInt 3, .ofInt (-4)]] =
      .ok (.floats [.ofInt 3, .ofInt 4]) ∧
    builtinResult sampleEnv .default "filter" [.builtinFn .abs, .floats [.ofInt 3, .ofInt 0, .ofInt (-4)]] =
      .ok (.floats [.ofInt 3, .ofInt (-4)]) := by
  decide +kernel

end RE
