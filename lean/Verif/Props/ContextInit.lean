import Verif.Model.ContextInit
import Verif.Props.Accept
import Verif.Props.Basics

/-!
# Making a context (C62)
-/

set_option linter.unusedSimpArgs false

namespace RE

/-! ### The timezone -/

/-- **C62.** *default_timezone* is a tzinfo, which is used, or the text `local` or `utc` in any mixture of cases; any
other text is a ValueError, anything else a TypeError.  (For texts that are not ASCII this depends on Python's lower-case
table.) -/
theorem context_timezone (env : Env) (l u : Nat) :
    (∀ z, timezoneOf env l u (.tzinfo z) = .ok z) ∧ timezoneOf env l u .other = .error .typeError ∧
    ∀ s : String, isAscii s.toList = true →
      (s.toList.map asciiLower = "local".toList → timezoneOf env l u (.str s) = .ok l) ∧
      (s.toList.map asciiLower = "utc".toList → timezoneOf env l u (.str s) = .ok u) ∧
      (s.toList.map asciiLower ≠ "local".toList → s.toList.map asciiLower ≠ "utc".toList →
        timezoneOf env l u (.str s) = .error (.py .valueError)) := by
  refine ⟨fun _ => rfl, rfl, fun s hs => ⟨fun h => ?_, fun h => ?_, fun h1 h2 => ?_⟩⟩
  · simp only [timezoneOf, pyLower, hs, if_true, h]
    rfl
  · simp only [timezoneOf, pyLower, hs, if_true, h]
    rfl
  · have hne : ∀ t : String, s.toList.map asciiLower ≠ t.toList → (String.ofList (s.toList.map asciiLower) == t) = false := by
      intro t ht
      simp only [beq_eq_false_iff_ne, ne_eq]
      intro he
      exact ht (by rw [← he, String.toList_ofList])
    simp only [timezoneOf, pyLower, hs, if_true, hne _ h1, hne _ h2, Bool.false_eq_true, if_false]

/-! ### The other arguments -/

theorem typeMapOf_keys : ∀ {d : List (String × TypeGiven)} {m : List (String × DataType)}, typeMapOf d = .ok m →
    List.Forall₂ (fun p q => q.1 = p.1 ∧ (p.2 = .type q.2 ∨ ∃ v, p.2 = .value v ∧ fromValue v = .ok q.2)) d m
  | [], m, h => by cases h; exact .nil
  | (n, .type t) :: rest, m, h => by
    simp only [typeMapOf, except_bind_ok] at h
    obtain ⟨ts, hts, h⟩ := h
    cases h
    exact .cons ⟨rfl, .inl rfl⟩ (typeMapOf_keys hts)
  | (n, .value v) :: rest, m, h => by
    simp only [typeMapOf, except_bind_ok] at h
    obtain ⟨t, ht, ts, hts, h⟩ := h
    cases h
    exact .cons ⟨rfl, .inr ⟨v, rfl, ht⟩⟩ (typeMapOf_keys hts)

theorem find_typeMap {d : List (String × TypeGiven)} {m : List (String × DataType)}
    (h : List.Forall₂ (fun p q => q.1 = p.1 ∧ (p.2 = TypeGiven.type q.2 ∨ ∃ v, p.2 = .value v ∧ fromValue v = .ok q.2)) d m)
    (n : String) :
    (∀ g, d.lookup n = some g → ∃ t, typeResolverFromDict m n = .ok t ∧ (g = .type t ∨ ∃ v, g = .value v ∧ fromValue v = .ok t)) ∧
    (d.lookup n = none → typeResolverFromDict m n = .error (.eng (.symbolResolution n))) := by
  induction h with
  | nil => exact ⟨fun g h => by simp at h, fun _ => rfl⟩
  | @cons p q d m hp _ ih =>
    obtain ⟨k, g⟩ := p
    obtain ⟨k', t⟩ := q
    simp only at hp
    obtain ⟨rfl, ht⟩ := hp
    by_cases hn : n = k'
    · subst hn
      refine ⟨fun g' hg => ?_, fun hg => ?_⟩
      · simp only [List.lookup_cons, beq_self_eq_true, Option.some.injEq] at hg
        subst hg
        exact ⟨t, by simp [typeResolverFromDict], ht⟩
      · simp at hg
    · have h1 : (n == k') = false := by simpa using hn
      have h2 : (k' == n) = false := by simpa using fun h => hn h.symm
      simp only [List.lookup_cons, h1, typeResolverFromDict, List.find?_cons, h2]
      exact ih

/-- **C62.** What a context made from its arguments does: its resolver is the one given or item lookup, its default value
and decimal context are the ones given, the decimal context else that of the thread that made the context; without a
type resolver every name is of unknown type; with a dictionary a name in it has the type given or that of the example
given, and every other name is refused with SymbolResolutionError. -/
theorem context_arguments {env e : Env} {l u : Nat} {dct : DecCtx} {a : ContextArgs}
    (h : contextInit env l u dct a = .ok e) :
    (∀ f, a.resolver = some f → e.resolver = f) ∧
    (a.resolver = none → ∀ thing n, e.resolver thing n = resolveItem env.utcoffset thing n) ∧
    e.defaultValue = a.defaultValue ∧
    (∀ c, a.decimalContext = some c → e.decCtx = c) ∧ (a.decimalContext = none → e.decCtx = dct) ∧
    timezoneOf env l u a.defaultTimezone = .ok e.defaultTz ∧
    (a.typeResolver = .nothing → ∀ n, e.typeResolver n = .ok .undefined) ∧
    (∀ f, a.typeResolver = .function f → e.typeResolver = f) ∧
    ∀ d, a.typeResolver = .mapping d → ∀ n,
      (∀ t, d.lookup n = some (.type t) → e.typeResolver n = .ok t) ∧
      (∀ v, d.lookup n = some (.value v) → e.typeResolver n = fromValue v) ∧
      (d.lookup n = none → e.typeResolver n = .error (.eng (.symbolResolution n))) := by
  simp only [contextInit, except_bind_ok] at h
  obtain ⟨tz, htz, tr, htr, h⟩ := h
  cases h
  refine ⟨fun f hf => by simp [hf], fun hf => by simp [hf], rfl, fun c hc => by simp [hc], fun hc => by simp [hc], htz,
    fun hn => ?_, fun f hf => ?_, fun d hd n => ?_⟩
  · rw [hn] at htr; cases htr; intro n; rfl
  · rw [hf] at htr; cases htr; rfl
  · rw [hd] at htr
    simp only [typeResolverOf, except_bind_ok] at htr
    obtain ⟨m, hm, htr⟩ := htr
    cases htr
    have hk := find_typeMap (typeMapOf_keys hm) n
    refine ⟨fun t ht => ?_, fun v hv => ?_, hk.2⟩
    · obtain ⟨t', h1, h2 | ⟨v, h2, -⟩⟩ := hk.1 _ ht
      · cases h2; exact h1
      · cases h2
    · obtain ⟨t', h1, h2 | ⟨w, h2, h3⟩⟩ := hk.1 _ hv
      · cases h2
      · cases h2; rw [h3]; exact h1

/-- **C62.** A context cannot be made exactly if the timezone is refused or an example in the dictionary of types has no
type, and the error is then that of the timezone, or of the first such example. -/
theorem context_refused (env : Env) (l u : Nat) (dct : DecCtx) (a : ContextArgs) :
    (∀ err, timezoneOf env l u a.defaultTimezone = .error err → contextInit env l u dct a = .error err) ∧
    ((∃ tz, timezoneOf env l u a.defaultTimezone = .ok tz) →
      ((∃ e, contextInit env l u dct a = .ok e) ↔
        ∀ d, a.typeResolver = .mapping d → ∀ n v, (n, TypeGiven.value v) ∈ d → ∃ t, fromValue v = .ok t)) := by
  have key : ∀ d : List (String × TypeGiven), (∃ m, typeMapOf d = .ok m) ↔
      ∀ n v, (n, TypeGiven.value v) ∈ d → ∃ t, fromValue v = .ok t := by
    intro d
    induction d with
    | nil => exact ⟨fun _ n v h => by simp at h, fun _ => ⟨[], rfl⟩⟩
    | cons p d ih =>
      obtain ⟨k, g⟩ := p
      cases g with
      | type t =>
        simp only [typeMapOf, except_bind_ok]
        constructor
        · rintro ⟨m, ts, hts, -⟩ n v hm
          simp only [List.mem_cons, Prod.mk.injEq, reduceCtorEq, and_false, false_or] at hm
          exact ih.1 ⟨ts, hts⟩ n v hm
        · intro h
          obtain ⟨ts, hts⟩ := ih.2 fun n v hm => h n v (by simp [hm])
          exact ⟨_, ts, hts, rfl⟩
      | value w =>
        simp only [typeMapOf, except_bind_ok]
        constructor
        · rintro ⟨m, t, ht, ts, hts, -⟩ n v hm
          simp only [List.mem_cons, Prod.mk.injEq, TypeGiven.value.injEq] at hm
          rcases hm with ⟨-, rfl⟩ | hm
          · exact ⟨t, ht⟩
          · exact ih.1 ⟨ts, hts⟩ n v hm
        · intro h
          obtain ⟨t, ht⟩ := h k w (by simp)
          obtain ⟨ts, hts⟩ := ih.2 fun n v hm => h n v (by simp [hm])
          exact ⟨_, t, ht, ts, hts, rfl⟩
  constructor
  · intro err h
    simp only [contextInit, h]
    rfl
  · rintro ⟨tz, htz⟩
    have hc : (∃ e, contextInit env l u dct a = .ok e) ↔ ∃ tr, typeResolverOf a.typeResolver = .ok tr := by
      simp only [contextInit, except_bind_ok, htz]
      constructor
      · rintro ⟨e, _, _, tr, htr, -⟩; exact ⟨tr, htr⟩
      · rintro ⟨tr, htr⟩; exact ⟨_, tz, rfl, tr, htr, rfl⟩
    rw [hc]
    cases hr : a.typeResolver with
    | nothing => simp [typeResolverOf]
    | function f => simp [typeResolverOf]
    | mapping d =>
      simp only [ResolverGiven.mapping.injEq, forall_eq', ← key d, typeResolverOf, except_bind_ok]
      constructor
      · rintro ⟨tr, m, hm, -⟩; exact ⟨m, hm⟩
      · rintro ⟨m, hm⟩; exact ⟨_, m, hm, rfl⟩

/-! ### Types taken from an example -/

/-- the type of a value is accepted for it -/
theorem checkSymbol_own {env : Env} {v : Value} {t : DataType} (n : String) (hk : KeysStayDistinct env.utcoffset v)
    (ht : fromValue v = .ok t) : checkSymbol n t (newValue env v) = .ok (newValue env v) := by
  have hv : fromValue (newValue env v) = .ok t := by
    have h1 : fromValue (coerce env.utcoffset v) = .ok t := by rw [coerce_type_partial _ v hk, ht]
    unfold newValue
    generalize coerce env.utcoffset v = w at h1
    unfold localise
    split
    · simpa [fromValue] using h1
    · exact h1
  have hn : ∀ m b, (t = .array m b → b = true) ∧ (t = .set m b → b = true) := by
    intro m b
    have := fromValue_kindOf ht
    constructor <;> rintro rfl
    · cases this
      simp only [fromValue, except_bind_ok] at ht
      obtain ⟨_, _, ht⟩ := ht
      cases ht; rfl
    · cases this
      simp only [fromValue, except_bind_ok] at ht
      obtain ⟨_, _, ht⟩ := ht
      cases ht; rfl
  have hm : ∀ k m b, t = .mapping k m b → b = true := by
    rintro k m b rfl
    have := fromValue_kindOf ht
    cases this
    simp only [fromValue, except_bind_ok, mkMappingType] at ht
    obtain ⟨_, _, _, _, ht⟩ := ht
    split at ht
    · cases ht
    · cases ht; rfl
  have he : DataType.eq t.valueType t.valueType = true := (dataType_eq_iff _ _).2 rfl
  unfold checkSymbol
  rw [hv]
  by_cases hu : DataType.eq t .undefined = true
  · simp [hu]
  · simp only [hu, if_false]
    change (if DataType.compat t t then _ else _) = _
    simp only [dataType_compat_refl, if_true]
    by_cases hs : t.isScalar = true
    · simp [hs]
    · simp only [hs, if_false]
      by_cases hvu : DataType.eq t.valueType .undefined = true
      · simp [hvu]
      · simp only [hvu, if_false, he, if_true]
        cases t <;> simp [DataType.isScalar] at hs
        case array m b => simp [(hn m b).1 rfl]
        case set m b => simp [(hn m b).2 rfl]
        case mapping k m b => simp [hm k m b rfl]

/-- **C62.** A context with an example thing as its *type_resolver* accepts that example: for every name in the thing
(whose value has a type), the rule that is just that name is accepted with the type of its value, and evaluating it on the
thing returns that value, normalised — no SymbolTypeError.  (Mappings in it must keep their keys apart when they are
normalised, as they do unless a float key and a Decimal key become equal.) -/
theorem example_accepted {codec : LitCodec} {env e : Env} {l u : Nat} {dct : DecCtx} {a : ContextArgs}
    (kvs : List (String × Value)) (ha : a.typeResolver = .mapping (kvs.map fun p => (p.1, .value p.2)))
    (hr : a.resolver = none) (h : contextInit env l u dct a = .ok e)
    {x : List Char} (hx : IsWord x) (hd : x.head? ≠ some '$') {v : Value} (hv : kvs.lookup (String.ofList x) = some v)
    (hk : KeysStayDistinct env.utcoffset v) (acts : List TextAct) :
    ∃ ex t, outcome codec e dct acts x = .ok ex ∧ ex.rt = t ∧ fromValue v = .ok t ∧
      ∀ s, (ruleEval e ex (dictOf kvs) s).1 = .ok (newValue e v) := by
  have hc := context_arguments h
  have hoff : e.utcoffset = env.utcoffset := by
    simp only [contextInit, except_bind_ok] at h
    obtain ⟨_, _, _, _, h⟩ := h
    cases h; rfl
  have hl : ∀ n, (kvs.map fun p => (p.1, TypeGiven.value p.2)).lookup n = (kvs.lookup n).map TypeGiven.value := by
    intro n
    clear hv h ha
    induction kvs with
    | nil => rfl
    | cons p kvs ih =>
      obtain ⟨k, w⟩ := p
      simp only [List.map_cons, List.lookup_cons]
      cases n == k
      · exact ih
      · rfl
  have ht : e.typeResolver (String.ofList x) = fromValue v :=
    (hc.2.2.2.2.2.2.2.2 _ ha (String.ofList x)).2.1 v (by rw [hl, hv]; rfl)
  have hex : ∃ t, fromValue v = .ok t := by
    have htz : ∃ tz, timezoneOf env l u a.defaultTimezone = .ok tz := ⟨_, hc.2.2.2.2.2.1⟩
    have := ((context_refused env l u dct a).2 htz).1 ⟨e, h⟩ _ ha
    refine this (String.ofList x) v ?_
    refine List.mem_map.2 ⟨(String.ofList x, v), ?_, rfl⟩
    clear ha h hl ht this
    induction kvs with
    | nil => simp at hv
    | cons p kvs ih =>
      rw [List.lookup_cons] at hv
      split at hv
      · rename_i hb
        rw [List.mem_cons]
        left
        simp only [beq_iff_eq] at hb
        simp only [Option.some.injEq] at hv
        exact Prod.ext hb hv.symm
      · exact List.mem_cons_of_mem _ (ih hv)
  obtain ⟨t, hvt⟩ := hex
  rw [hvt] at ht
  have hp := part_symbol (codec := codec) (dct := dct) hx hd ht
  obtain ⟨raw, hm, hb⟩ := hp.build
  obtain ⟨s, hs, ho⟩ := outcome_of (env := e) (dct := dct) (acts := acts) hm
  obtain ⟨s', hb', -⟩ := hb s hs
  refine ⟨_, t, by rw [ho, hb'], rfl, hvt, fun s => ?_⟩
  have hres : e.resolver (dictOf kvs) (String.ofList x) = .ok v := by
    rw [hc.2.1 hr]
    rw [default_resolver_ok]
    clear ha h hl ht hm hb ho hb' hp
    refine ⟨.dict, ?_⟩
    induction kvs with
    | nil => simp at hv
    | cons p kvs ih =>
      rw [List.lookup_cons] at hv
      split at hv
      · rename_i hb
        simp only [beq_iff_eq] at hb
        simp only [Option.some.injEq] at hv
        refine ⟨[], kvs.map fun p => (.str p.1, p.2), ?_, by simp⟩
        simp only [dictOf, List.map_cons, List.nil_append, hb, hv]
      · rename_i hb
        obtain ⟨pre, post, h1, h2⟩ := ih hv
        refine ⟨(.str p.1, p.2) :: pre, post, ?_, ?_⟩
        · simp only [dictOf, Value.map.injEq, true_and] at h1 ⊢
          simp [h1]
        · intro q hq
          rcases List.mem_cons.1 hq with rfl | hq
          · simp only [ne_eq, Value.str.injEq]
            intro he
            simp [he] at hb
          · exact h2 q hq
  have hs2 : scopeLookup (St.reset s).scopes (String.ofList x) = none := rfl
  simp only [ruleEval, eval, evalSymbol, M.bind_apply, M.catchErr, ctxResolve, Bool.false_eq_true, if_false, hs2, hres,
    M.lift]
  exact checkSymbol_own _ (hoff ▸ hk) hvt

/-- The hypotheses are met: a context made from the thing `{'s': 'x', 'l': [1, 2]}`, with the default timezone; `s` has
the type STRING, `l` is an array of FLOATs, and both evaluate. -/
theorem example_sample (codec : LitCodec) (dct : DecCtx) (acts : List TextAct) :
    let thing := [("s", Value.str "x"), ("l", .seq .list [.int 1, .int 2])]
    ∃ e, contextInit sampleEnv 3 0 dct { typeResolver := .mapping (thing.map fun p => (p.1, .value p.2)) } = .ok e ∧
      e.defaultTz = 3 ∧ e.decCtx = dct ∧
      (∃ ex, outcome codec e dct acts ['l'] = .ok ex ∧ ex.rt = .array .float true ∧
        ∀ s, (ruleEval e ex (dictOf thing) s).1 = .ok (.tuple [.dec (.ofInt 1), .dec (.ofInt 2)])) ∧
      e.typeResolver "other" = .error (.eng (.symbolResolution "other")) := by
  intro thing
  have he : ∃ e, contextInit sampleEnv 3 0 dct { typeResolver := .mapping (thing.map fun p => (p.1, .value p.2)) } = .ok e ∧
      e.defaultTz = 3 ∧ e.decCtx = dct := ⟨_, rfl, rfl, rfl⟩
  obtain ⟨e, he, h1, h2⟩ := he
  refine ⟨e, he, h1, h2, ?_, ?_⟩
  · obtain ⟨ex, t, ho, ht, hv, hr⟩ := example_accepted (codec := codec) thing rfl rfl he (x := ['l'])
      ⟨by decide, by decide⟩ (by simp) (v := .seq .list [.int 1, .int 2]) rfl (by simp [KeysStayDistinct, AllKeysStayDistinct]) acts
    refine ⟨ex, ho, ?_, hr⟩
    rw [ht]
    cases hv
    rfl
  · exact ((context_arguments he).2.2.2.2.2.2.2.2 _ rfl "other").2.2 rfl

end RE
