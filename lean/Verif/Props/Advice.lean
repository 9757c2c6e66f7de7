import Verif.Model.Advice
import Verif.Props.Suggest
import Verif.Props.AttrRules
import Verif.Props.NameErrors

/-!
# Suggestions can be followed (C82)

An error about a name says "did you mean".  Whoever follows the advice must not get the same error again: the
suggested name exists, where the misspelled one was looked up.
-/

namespace RE

/-! ## Specification -/

/-- a name that can be written in a rule as it is: no `$` (which asks for a builtin), no newline, no reserved
word -/
structure Writable (y : String) : Prop where
  dollar : y.toList.head? ≠ some '$'
  newline : '\n' ∉ y.toList
  reserved : y.toList ∉ reservedWords

/-- a name that could be suggested is a word of the rule language if it can be written as it is -/
theorem Writable.word {y : String} (h : Writable y) (hs : IsSymbolOption y.toList) : IsWord y.toList := by
  refine ⟨?_, h.reserved⟩
  have hname : ∀ t, IsSymbolName t → isName t = true := by
    rintro t ⟨dollar, c, cs, rfl, hd, h1, h2⟩
    have hstart : isNameStart c = true := by simpa [isNameStart] using h1
    have hall : cs.all isNameChar = true := by
      rw [List.all_eq_true]
      intro x hx
      simpa [isNameChar] using h2 x hx
    have hc : c ≠ '$' := by rintro rfl; revert hstart; decide
    rcases hd with rfl | rfl
    · simp only [List.nil_append, isName, dropDollar]
      split
      · rename_i c' r heq
        split at heq
        · rename_i heq2; simp only [List.cons.injEq] at heq2; exact absurd heq2.1 hc
        · simp only [List.cons.injEq] at heq; obtain ⟨rfl, rfl⟩ := heq; simp [hstart, hall]
      · rename_i heq
        split at heq
        · rename_i heq2; simp only [List.cons.injEq] at heq2; exact absurd heq2.1 hc
        · cases heq
    · simp only [List.cons_append, List.nil_append, isName, dropDollar, hstart, hall, Bool.and_self]
  rcases hs with hs | ⟨t, _, ht⟩
  · exact hname _ hs
  · exact absurd (by rw [ht]; simp) h.newline

theorem symRaw_plain_word {y : String} (h : y.toList.head? ≠ some '$') : symRaw y.toList = .sym y false := by
  unfold symRaw
  split
  · rename_i heq; rw [heq] at h; exact absurd rfl h
  · rw [String.ofList_toList]

/-! ## Names of the thing -/

theorem mem_strKeys {kvs : List (Value × Value)} {y : String} :
    y ∈ strKeys kvs ↔ ∃ v, (Value.str y, v) ∈ kvs := by
  unfold strKeys
  rw [List.mem_filterMap]
  constructor
  · rintro ⟨⟨k, v⟩, hm, h⟩
    cases k <;> simp at h
    subst h
    exact ⟨v, hm⟩
  · rintro ⟨v, hm⟩
    exact ⟨_, hm, rfl⟩

theorem key_found {off : TzDb} {kvs : List (Value × Value)} {y : String} {v : Value}
    (h : (Value.str y, v) ∈ kvs) : ∃ w, mapLookup off kvs (.str y) = some w := by
  unfold mapLookup
  have : ∃ p, kvs.find? (fun p => pyEq off p.1 (.str y)) = some p := by
    rw [← Option.isSome_iff_exists, List.find?_isSome]
    exact ⟨_, h, by simp [pyEq]⟩
  obtain ⟨p, hp⟩ := this
  exact ⟨p.2, by rw [hp]; rfl⟩

/-- **C82.** When `resolve_item` does not find a name, its error suggests a key of the thing that is a symbol name
and for which the resolver gives a value: the one most similar to the name.  It suggests nothing exactly if the
thing is no mapping or has no such key. -/
theorem suggested_key {fl : ℚ → ℚ} (hf : FloatRounding fl) (off : TzDb) (thing : Value) (name : String)
    (hshort : name.length ≤ 2 ^ 53) (h : resolveItem off thing name = .error (.eng (.symbolResolution name))) :
    ∃ r, itemAdvice fl thing name = some r ∧
      (r = none ↔ ∀ k kvs y v, thing = .map k kvs → (Value.str y, v) ∈ kvs → ¬ IsSymbolOption y.toList) ∧
      ∀ y, r = some y → y ≠ name ∧ IsSymbolOption y.toList ∧ (∃ v, resolveItem off thing y = .ok v) ∧
        ∀ k kvs y' v, thing = .map k kvs → (Value.str y', v) ∈ kvs → IsSymbolOption y'.toList → ∀ d d',
          jaroWinkler fl name.toList y.toList = some d →
          jaroWinkler fl name.toList y'.toList = some d' → fl (1 - d) ≤ fl (1 - d') := by
  by_cases hm : ∃ k kvs, thing = .map k kvs
  · obtain ⟨k, kvs, rfl⟩ := hm
    obtain ⟨r, h1, h2, h3⟩ := suggestion_valid hf name (strKeys kvs) hshort
    refine ⟨r, h1, h2.trans ?_, ?_⟩
    · constructor
      · rintro hno k' kvs' y v hk hy
        cases hk
        exact hno y (mem_strKeys.2 ⟨v, hy⟩)
      · intro hno o ho
        obtain ⟨v, hv⟩ := mem_strKeys.1 ho
        exact hno k kvs o v rfl hv
    · intro y hy
      obtain ⟨ho, hs, hbest⟩ := h3 y hy
      obtain ⟨v, hv⟩ := mem_strKeys.1 ho
      obtain ⟨w, hw⟩ := key_found (off := off) hv
      have hres : resolveItem off (.map k kvs) y = .ok w := by simp only [resolveItem, hw]
      refine ⟨?_, hs, ⟨w, hres⟩, ?_⟩
      · rintro rfl
        rw [h] at hres
        cases hres
      · intro k' kvs' y' v' hk hy' hs'
        cases hk
        exact hbest y' (mem_strKeys.2 ⟨v', hy'⟩) hs'
  · have hadv : itemAdvice fl thing name = some none := by
      unfold itemAdvice
      split
      · rename_i k kvs; exact absurd ⟨k, kvs, rfl⟩ hm
      · rfl
    refine ⟨none, hadv, ⟨fun _ k kvs y v hk => absurd ⟨k, kvs, hk⟩ hm, fun _ => rfl⟩, fun y hy => by cases hy⟩

/-- **C82.** Following it: if the name can be written in a rule as it is, the rule that consists of it is accepted
(without declared types) and gives that key's value, coerced. -/
theorem follow_key {fl : ℚ → ℚ} (hf : FloatRounding fl) (codec : LitCodec) (env : Env) (dct : DecCtx)
    (hres : env.resolver = resolveItem env.utcoffset) (htypes : env.typeResolver = noTypes)
    (thing : Value) (name : String) (hshort : name.length ≤ 2 ^ 53)
    (h : resolveItem env.utcoffset thing name = .error (.eng (.symbolResolution name))) (y : String)
    (hy : itemAdvice fl thing name = some (some y)) (hw : Writable y) :
    ∃ rule v, resolveItem env.utcoffset thing y = .ok v ∧
      (Proc.new.rule codec env dct y).1 = .ok rule ∧
      (Proc.new.evaluate env rule thing).1 = .ok (newValue env v) := by
  obtain ⟨r, h1, -, h3⟩ := suggested_key hf env.utcoffset thing name hshort h
  rw [h1] at hy
  obtain ⟨-, hs, ⟨v, hv⟩, -⟩ := h3 y (Option.some.inj hy)
  have hm := means_sym (codec := codec) (hw.word hs)
  rw [symRaw_plain_word hw.dollar] at hm
  have hr := rule_of_means (env := env) (dct := dct) hm
  rw [String.ofList_toList] at hr
  refine ⟨.sym y .undefined false, v, hv, hr.trans ?_, ?_⟩
  · simp only [build, mkSym, ctxResolveType, M.bind_apply, M.modify, Bool.false_eq_true, if_false, St.init,
      scopeLookup, List.find?_nil, htypes, noTypes]
    rfl
  · have hu : DataType.eq .undefined .undefined = true := rfl
    simp only [Proc.evaluate, ruleEval, eval, evalSymbol, M.bind_apply, M.catchErr, ctxResolve, Bool.false_eq_true,
      if_false, Proc.new, St.reset, scopeLookup, List.find?_nil, hres, hv, M.lift_apply, checkSymbol, hu, if_true]

/-! ## Declared names -/

/-- **C82.** When a type resolver made from a dictionary refuses a name, it suggests a name that is declared. -/
theorem suggested_declaration {fl : ℚ → ℚ} (hf : FloatRounding fl) (d : List (String × DataType)) (name : String)
    (hshort : name.length ≤ 2 ^ 53)
    (h : typeResolverFromDict d name = .error (.eng (.symbolResolution name))) :
    ∃ r, typeAdvice fl d name = some r ∧
      (r = none ↔ ∀ p ∈ d, ¬ IsSymbolOption p.1.toList) ∧
      ∀ y, r = some y → y ≠ name ∧ IsSymbolOption y.toList ∧ ∃ t, (y, t) ∈ d ∧ typeResolverFromDict d y = .ok t := by
  obtain ⟨r, h1, h2, h3⟩ := suggestion_valid hf name (d.map (·.1)) hshort
  refine ⟨r, h1, h2.trans ?_, ?_⟩
  · simp only [List.mem_map, forall_exists_index, and_imp, forall_apply_eq_imp_iff₂]
  · intro y hy
    obtain ⟨ho, hs, -⟩ := h3 y hy
    obtain ⟨p, hp, rfl⟩ := List.mem_map.1 ho
    have : ∃ q, d.find? (fun q => q.1 == p.1) = some q := by
      rw [← Option.isSome_iff_exists, List.find?_isSome]
      exact ⟨p, hp, by simp⟩
    obtain ⟨q, hq⟩ := this
    have hok : typeResolverFromDict d p.1 = .ok q.2 := by simp only [typeResolverFromDict, hq]
    refine ⟨?_, hs, q.2, ?_, hok⟩
    · rintro rfl
      rw [h] at hok
      cases hok
    · have he : q.1 = p.1 := by simpa using List.find?_some hq
      rw [← he]
      exact List.mem_of_find?_eq_some hq

/-- **C82.** Following it: the rule that consists of the declared name is accepted, with the declared type. -/
theorem follow_declaration {fl : ℚ → ℚ} (hf : FloatRounding fl) (codec : LitCodec) (env : Env) (dct : DecCtx)
    (d : List (String × DataType)) (htypes : env.typeResolver = typeResolverFromDict d) (name : String)
    (hshort : name.length ≤ 2 ^ 53) (h : typeResolverFromDict d name = .error (.eng (.symbolResolution name)))
    (y : String) (hy : typeAdvice fl d name = some (some y)) (hw : Writable y) :
    ∃ rule t, (y, t) ∈ d ∧ (Proc.new.rule codec env dct y).1 = .ok rule ∧ rule.rt = t := by
  obtain ⟨r, h1, -, h3⟩ := suggested_declaration hf d name hshort h
  rw [h1] at hy
  obtain ⟨-, hs, t, ht, hok⟩ := h3 y (Option.some.inj hy)
  have hm := means_sym (codec := codec) (hw.word hs)
  rw [symRaw_plain_word hw.dollar] at hm
  have hr := rule_of_means (env := env) (dct := dct) hm
  rw [String.ofList_toList] at hr
  refine ⟨.sym y t false, t, ht, hr.trans ?_, rfl⟩
  simp only [build, mkSym, ctxResolveType, M.bind_apply, M.modify, Bool.false_eq_true, if_false, St.init, scopeLookup,
    List.find?_nil, htypes, hok]
  rfl

/-! ## Attributes -/

theorem attrNames_spec (k : AttrKind) (n : String) : n ∈ attrNames k ↔ attrTypeFn k n ≠ none := by
  constructor
  · intro h
    cases k <;> simp only [attrNames, List.mem_cons, List.not_mem_nil, or_false] at h <;>
      rcases h with rfl | rfl | rfl | rfl | rfl | rfl | rfl | rfl | rfl | rfl | rfl | rfl <;>
      simp [attrTypeFn]
  · intro h
    cases k <;> simp only [attrTypeFn] at h <;> split at h <;> first
      | exact absurd rfl h
      | simp [attrNames]

theorem attrNames_words : ∀ k : AttrKind, ∀ n ∈ attrNames k,
    (isName n.toList = true ∧ n.toList ∉ reservedWords) ∧ n.toList.head? ≠ some '$' := by
  intro k
  cases k <;> decide +kernel

/-- **C82.** When a data type has no attribute of a name, the error suggests one that it has; none is suggested
exactly if the type has no attributes at all. -/
theorem suggested_attribute {fl : ℚ → ℚ} (hf : FloatRounding fl) (t : DataType) (name : String)
    (hshort : name.length ≤ 2 ^ 53)
    (h : resolveAttrType t name = .error (.eng (.attributeResolution name))) :
    ∃ r, attrAdvice fl t name = some r ∧
      (r = none ↔ ∀ n u, resolveAttrType t n ≠ .ok u) ∧
      ∀ y, r = some y → y ≠ name ∧ Writable y ∧ IsWord y.toList ∧ ∃ u, resolveAttrType t y = .ok u := by
  have hres : ∀ k, attrKind t = some k → ∀ n, (∃ u, resolveAttrType t n = .ok u) ↔ n ∈ attrNames k := by
    intro k hk n
    rw [attrNames_spec]
    unfold resolveAttrType
    rw [hk]
    simp only
    generalize attrTypeFn k n = o
    cases o <;> simp
  cases hk : attrKind t with
  | none =>
    refine ⟨none, by simp only [attrAdvice, hk], ⟨fun _ n u hu => ?_, fun _ => rfl⟩, fun y hy => by cases hy⟩
    simp only [resolveAttrType, hk] at hu
    cases hu
  | some k =>
    obtain ⟨r, h1, h2, h3⟩ := suggestion_valid hf name (attrNames k) hshort
    have hopt : ∀ n ∈ attrNames k, IsSymbolOption n.toList := by
      intro n hn
      rw [← matchesSymbol_iff]
      revert n hn
      cases k <;> decide +kernel
    refine ⟨r, by simp only [attrAdvice, hk, h1], ?_, ?_⟩
    · rw [h2]
      constructor
      · intro hno n u hu
        have hn := (hres k hk n).1 ⟨u, hu⟩
        exact hno n hn (hopt n hn)
      · intro hno o ho
        obtain ⟨u, hu⟩ := (hres k hk o).2 ho
        exact absurd hu (hno o u)
    · intro y hy
      obtain ⟨ho, hs, -⟩ := h3 y hy
      obtain ⟨hw, hd⟩ := attrNames_words k y ho
      obtain ⟨u, hu⟩ := (hres k hk y).2 ho
      have hnl : '\n' ∉ y.toList := by
        revert ho
        clear hy hu hw hd hs
        intro ho
        have : ∀ k : AttrKind, ∀ n ∈ attrNames k, '\n' ∉ n.toList := by
          intro k
          cases k <;> decide +kernel
        exact this k y ho
      refine ⟨?_, ⟨hd, hnl, hw.2⟩, hw, u, hu⟩
      rintro rfl
      rw [h] at hu
      cases hu

/-- **C82.** Following it: where `(a).name` is refused because the type of the rule `a` has no attribute `name`, the
rule with the suggested name is accepted (if `a` is no constant). -/
theorem follow_attribute {fl : ℚ → ℚ} (hf : FloatRounding fl) {codec : LitCodec} {env : Env} {dct : DecCtx}
    {a : List Char} {l : Expr} (ha : Part codec env dct a l) (hl : l.reduced = false) (name : String)
    (hshort : name.length ≤ 2 ^ 53)
    (h : resolveAttrType l.rt name = .error (.eng (.attributeResolution name))) (y : String)
    (hy : attrAdvice fl l.rt name = some (some y)) (acts : List TextAct) :
    outcome codec env dct acts (attrText a y) = .ok (.getAttr l y false) := by
  obtain ⟨r, h1, -, h3⟩ := suggested_attribute hf l.rt name hshort h
  rw [h1] at hy
  obtain ⟨-, hw, hword, u, hu⟩ := h3 y (Option.some.inj hy)
  obtain ⟨ra, hma, hba⟩ := ha.build
  obtain ⟨s0, hs, hout⟩ := outcome_of (env := env) (dct := dct) (acts := acts) (means_attr hma hword hw.dollar false)
  obtain ⟨s1, hb, -⟩ := hba s0 hs
  have htext : attrText a y = par a ++ ((if false = true then "&." else ".").toList ++ y.toList) := rfl
  rw [htext, hout]
  simp only [RE.build]
  rw [bind_ok' hb]
  have hchk : checkAttr l.rt y false = .ok () := by
    unfold checkAttr
    split
    · rfl
    · split
      · rfl
      · rw [hu]
  simp only [mkGetAttr, hchk, hl, M.bind_apply, M.lift_apply, Bool.false_eq_true, if_false, String.ofList_toList]
  rfl

/-! ## Names of an object -/

theorem attr_errors {env : Env} {obj : Value} {y : String} (e : Err) (he : resolveAttr env obj y = .error e) :
    isSymErr e = false ∧
    ((∃ t u, fromValue obj = .ok t ∧ resolveAttrType t y = .ok u) → isAttrErr e = false) := by
  have hq : ∀ e : Err, e.aboutName = false → isSymErr e = false ∧
      ((∃ t u, fromValue obj = .ok t ∧ resolveAttrType t y = .ok u) → isAttrErr e = false) := by
    intro e h
    cases e with
    | py => exact ⟨rfl, fun _ => rfl⟩
    | eng e => cases e <;> first | exact ⟨rfl, fun _ => rfl⟩ | cases h
  unfold resolveAttr at he
  cases ht : fromValue obj with
  | error e0 =>
    have h0 := (quiet_fromValue obj).out _ ht
    rw [ht] at he
    have : (∃ t u, Except.error e0 = .ok t ∧ resolveAttrType t y = .ok u) → False := by
      rintro ⟨t, u, h, -⟩; cases h
    split at he
    · cases he; exact ⟨rfl, fun h => (this h).elim⟩
    · rename_i heq
      cases he
      cases heq
      exact ⟨(hq _ h0).1, fun h => (this h).elim⟩
    · rename_i heq; cases heq
  | ok t =>
    rw [ht] at he
    simp only at he
    cases hk : attrKind t with
    | none =>
      rw [hk] at he
      cases he
      refine ⟨rfl, ?_⟩
      rintro ⟨t', u, h, hu⟩
      cases h
      simp only [resolveAttrType, hk] at hu
      cases hu
    | some k =>
      rw [hk] at he
      simp only at he
      cases hf : attrTypeFn k y with
      | none =>
        rw [hf] at he
        cases he
        refine ⟨rfl, ?_⟩
        rintro ⟨t', u, h, hu⟩
        cases h
        simp only [resolveAttrType, hk, hf] at hu
        cases hu
      | some f =>
        rw [hf] at he
        simp only at he
        rw [← ht]
        cases h1 : attrValue env k y obj with
        | error e1 =>
          rw [h1] at he
          cases he
          exact hq _ ((quiet_attrValue env k y obj).out _ h1)
        | ok v =>
          rw [h1, except_ok_bind] at he
          cases h2 : coerceVerify env.utcoffset v with
          | error e2 =>
            rw [h2] at he
            cases he
            exact hq _ ((quiet_coerceVerify env.utcoffset v).out _ h2)
          | ok w =>
            rw [h2, except_ok_bind] at he
            cases h3 : fromValue w with
            | error e3 =>
              rw [h3] at he
              cases he
              exact hq _ ((quiet_fromValue w).out _ h3)
            | ok wt =>
              rw [h3, except_ok_bind] at he
              split at he
              · cases he
              · cases he; exact ⟨rfl, fun _ => rfl⟩

/-- **C82.** When neither the type of an object nor its keys have the name of an attribute access, the error suggests
a name that one of them has: asking for it in the same place, in any state, never raises the error again. -/
theorem suggested_member {fl : ℚ → ℚ} (hf : FloatRounding fl) (env : Env)
    (hres : env.resolver = resolveItem env.utcoffset) (obj : Value) (name : String) (hshort : name.length ≤ 2 ^ 53)
    (s s' : St) (h : evalGetAttr env obj name s = (.error (.eng (.attributeResolution name)), s'))
    (y : String) (hy : getAttrAdvice fl obj name = some (some y)) :
    y ≠ name ∧ IsSymbolOption y.toList ∧
    ∀ s2 e s3, evalGetAttr env obj y s2 = (.error e, s3) → isAttrErr e = false ∧ isSymErr e = false := by
  -- what the two lookups have raised
  have hattr : resolveAttr env obj name = .error (.eng (.attributeResolution name)) ∧
      ∃ e, resolveItem env.utcoffset obj name = .error e ∧ isSymErr e = true := by
    unfold evalGetAttr at h
    cases h1 : resolveAttr env obj name with
    | ok v => rw [h1] at h; simp only [Prod.mk.injEq] at h; cases h.1
    | error e1 =>
      rw [h1] at h
      simp only at h
      cases h2 : isAttrErr e1 with
      | false =>
        rw [h2] at h
        simp only [Bool.false_eq_true, if_false, Prod.mk.injEq] at h
        have := Except.error.inj h.1
        subst this
        cases h2
      | true =>
        rw [h2] at h
        simp only [if_true, ctxResolve, Bool.false_eq_true, if_false] at h
        cases h3 : scopeLookup s.scopes name with
        | some a => rw [h3] at h; simp only [Prod.mk.injEq] at h; cases h.1
        | none =>
          rw [h3, hres] at h
          simp only at h
          cases h4 : resolveItem env.utcoffset obj name with
          | ok v => rw [h4] at h; simp only [Prod.mk.injEq] at h; cases h.1
          | error e4 =>
            rw [h4] at h
            simp only at h
            cases h5 : isSymErr e4 with
            | true =>
              rw [h5] at h
              simp only [if_true] at h
              cases h6 : env.defaultValue with
              | some d => rw [h6] at h; simp only [Prod.mk.injEq] at h; cases h.1
              | none =>
                rw [h6] at h
                simp only [Prod.mk.injEq] at h
                exact ⟨by rw [Except.error.inj h.1], e4, rfl, h5⟩
            | false =>
              rw [h5] at h
              simp only [Bool.false_eq_true, if_false, Prod.mk.injEq] at h
              have he := Except.error.inj h.1
              subst he
              exfalso
              revert h4
              unfold resolveItem
              intro h4
              split at h4
              · split at h4
                · cases h4
                · split at h4 <;> cases h4
              · cases h4
  obtain ⟨hA, e4, hI, h5⟩ := hattr
  have hI' : resolveItem env.utcoffset obj name = .error (.eng (.symbolResolution name)) := by
    rw [hI]
    unfold resolveItem at hI
    split at hI
    · split at hI
      · cases hI
      · split at hI
        · cases hI; rfl
        · cases hI; cases h5
    · cases hI; rfl
  -- a name of either kind is found
  have fromKey : ∀ y, itemAdvice fl obj name = some (some y) → y ≠ name ∧ IsSymbolOption y.toList ∧
      ∃ v, resolveItem env.utcoffset obj y = .ok v := by
    intro y hy
    obtain ⟨r, h1, -, h3⟩ := suggested_key hf env.utcoffset obj name hshort hI'
    rw [h1] at hy
    obtain ⟨a, b, c, -⟩ := h3 y (Option.some.inj hy)
    exact ⟨a, b, c⟩
  have fromType : ∀ y, valueAdvice fl obj name = some (some y) → y ≠ name ∧ IsSymbolOption y.toList ∧
      ∃ t u, fromValue obj = .ok t ∧ resolveAttrType t y = .ok u := by
    intro y hy
    unfold valueAdvice at hy
    cases ht : fromValue obj with
    | error e => rw [ht] at hy; cases hy
    | ok t =>
      rw [ht] at hy
      simp only at hy
      have hno : resolveAttrType t name = .error (.eng (.attributeResolution name)) := by
        cases hr : resolveAttrType t name with
        | ok u =>
          exact absurd ((attr_errors _ hA).2 ⟨t, u, ht, hr⟩) (by simp [isAttrErr])
        | error e =>
          unfold resolveAttrType at hr
          split at hr
          · cases hr; rfl
          · split at hr
            · cases hr; rfl
            · cases hr
      obtain ⟨r, h1, -, h3⟩ := suggested_attribute hf t name hshort hno
      have hy' := hy
      rw [h1] at hy
      obtain ⟨a, -, -, u, hu⟩ := h3 y (Option.some.inj hy)
      refine ⟨a, ?_, t, u, rfl, hu⟩
      unfold attrAdvice at hy'
      split at hy'
      · cases hy'
      · rename_i k hk
        obtain ⟨r', g1, -, g3⟩ := suggestion_valid hf name (attrNames k) hshort
        rw [g1] at hy'
        exact (g3 y (Option.some.inj hy')).2.1
  have hcase : valueAdvice fl obj name = some (some y) ∨ itemAdvice fl obj name = some (some y) := by
    unfold getAttrAdvice at hy
    cases ha : valueAdvice fl obj name with
    | none => rw [ha] at hy; cases hy
    | some ra =>
      cases hb : itemAdvice fl obj name with
      | none => rw [ha, hb] at hy; cases hy
      | some rb =>
        rw [ha, hb] at hy
        simp only [Option.bind_eq_bind, Option.bind_some] at hy
        cases ra with
        | none => right; exact hy
        | some x =>
          cases rb with
          | none => left; exact hy
          | some z =>
            simp only at hy
            obtain ⟨r, g1, -, g3⟩ := suggestion_valid hf name [x, z] hshort
            rw [g1] at hy
            have := (g3 y (Option.some.inj hy)).1
            simp only [List.mem_cons, List.not_mem_nil, or_false] at this
            rcases this with rfl | rfl
            · exact .inl rfl
            · exact .inr rfl
  have both : y ≠ name ∧ IsSymbolOption y.toList := by
    rcases hcase with h | h
    · exact ⟨(fromType y h).1, (fromType y h).2.1⟩
    · exact ⟨(fromKey y h).1, (fromKey y h).2.1⟩
  refine ⟨both.1, both.2, ?_⟩
  intro s2 e s3 he
  unfold evalGetAttr at he
  cases h1 : resolveAttr env obj y with
  | ok v => rw [h1] at he; simp only [Prod.mk.injEq] at he; cases he.1
  | error e1 =>
    obtain ⟨g1, g2⟩ := attr_errors e1 h1
    rw [h1] at he
    simp only at he
    cases h2 : isAttrErr e1 with
    | false =>
      rw [h2] at he
      simp only [Bool.false_eq_true, if_false, Prod.mk.injEq] at he
      cases he.1
      exact ⟨h2, g1⟩
    | true =>
      exfalso
      rcases hcase with hc | hc
      · rw [g2 (fromType y hc).2.2] at h2
        cases h2
      · obtain ⟨v, hv⟩ := (fromKey y hc).2.2
        rw [h2] at he
        simp only [if_true, ctxResolve, Bool.false_eq_true, if_false, hres, hv] at he
        cases h3 : scopeLookup s2.scopes y with
        | some a => rw [h3] at he; simp only [Prod.mk.injEq] at he; cases he.1
        | none => rw [h3] at he; simp only [Prod.mk.injEq] at he; cases he.1

/-! ## Where the advice does not help -/

theorem one_option (k : String) (name : String) (h : matchesSymbol k.toList = true)
    {q : ℚ} (hq : winklerKey id name k = some q) : suggestSymbol id name [k] = some (some k) := by
  simp only [suggestSymbol, List.filter_cons, h, if_true, List.filter_nil, suggest, List.mapM_cons, List.mapM_nil, hq,
    Option.map_some, Option.bind_eq_bind, Option.bind_some, Option.pure_def, List.mergeSort_singleton, List.head?_cons]

/-- **C82**: the conditions on the name are needed.  Of the thing `{"if": 1}`, for the name `of`, the suggestion is
`if`, which as a rule is refused; of `{"$pi": 1}`, for `pi`, it is `$pi`, which is a rule, but of the builtin: it
gives no 1. -/
theorem unhelpful_advice :
    (resolveItem sampleEnv.utcoffset (dictOf [("if", .int 1)]) "of" = .error (.eng (.symbolResolution "of")) ∧
      itemAdvice id (dictOf [("if", .int 1)]) "of" = some (some "if") ∧
      ∀ rule, (Proc.new.rule plainCodec sampleEnv .default "if").1 ≠ .ok rule) ∧
    (resolveItem sampleEnv.utcoffset (dictOf [("$pi", .int 1)]) "pi" = .error (.eng (.symbolResolution "pi")) ∧
      itemAdvice id (dictOf [("$pi", .int 1)]) "pi" = some (some "$pi") ∧
      (∃ v, resolveItem sampleEnv.utcoffset (dictOf [("$pi", .int 1)]) "$pi" = .ok v) ∧
      ∃ rule, (Proc.new.rule plainCodec sampleEnv .default (String.ofList "$pi".toList)).1 = .ok rule ∧
        ∀ thing thing', (Proc.new.evaluate sampleEnv rule thing).1 = (Proc.new.evaluate sampleEnv rule thing').1) := by
  refine ⟨⟨by decide +kernel, ?_, ?_⟩, ⟨by decide +kernel, ?_, ⟨.int 1, by decide +kernel⟩, ?_⟩⟩
  · exact one_option "if" "of" (by decide +kernel) (q := 1 / 3) (by decide +kernel)
  · have h : (match (Proc.new.rule plainCodec sampleEnv .default "if").1 with | .ok _ => false | .error _ => true) =
        true := by decide +kernel
    intro rule hr
    rw [hr] at h
    cases h
  · exact one_option "$pi" "pi" (by decide +kernel) (q := 1) (by decide +kernel)
  · have hm : Means plainCodec "$pi".toList (symRaw "$pi".toList) := means_sym ⟨by decide, by decide⟩
    refine ⟨_, (rule_of_means hm).trans rfl, ?_⟩
    intro thing thing'
    rfl

/-- the hypotheses of `follow_key` and `suggested_member` are met: of the thing `{"length": true}`, for `lenght`, the
advice is `length`, which is a name that can be written -/
example : resolveItem sampleEnv.utcoffset (dictOf [("length", .bool true)]) "lenght" =
      .error (.eng (.symbolResolution "lenght")) ∧
    itemAdvice id (dictOf [("length", .bool true)]) "lenght" = some (some "length") ∧ Writable "length" ∧
    sampleEnv.resolver = resolveItem sampleEnv.utcoffset ∧ sampleEnv.typeResolver = noTypes :=
  ⟨by decide +kernel, one_option "length" "lenght" (by decide +kernel) (q := 1 / 30) (by decide +kernel),
   ⟨by decide, by decide, by decide⟩, rfl, rfl⟩

/-- and those of `follow_attribute`: `x` declared STRING, and the attribute `lenght`, for which something is suggested -/
example (codec : LitCodec) : ∃ l y,
    let env := sampleEnv.alt sampleEnv.resolver (typeResolverFromDict [("x", .string)]) none
    Part codec env .default ['x'] l ∧ l.reduced = false ∧
      resolveAttrType l.rt "lenght" = .error (.eng (.attributeResolution "lenght")) ∧
      attrAdvice id l.rt "lenght" = some (some y) := by
  have hm : Means codec ['x'] (.sym "x" false) := means_sym x_word
  have h0 : resolveAttrType .string "lenght" = .error (.eng (.attributeResolution "lenght")) := by decide +kernel
  obtain ⟨r, h1, h2, -⟩ := suggested_attribute FloatRounding.id .string "lenght" (by decide) h0
  cases r with
  | none => exact absurd (show resolveAttrType .string "length" = .ok .float by decide +kernel) (h2.1 rfl _ _)
  | some y =>
    exact ⟨.sym "x" .string false, y, ⟨⟨_, hm⟩, [], (rule_of_means hm).trans rfl⟩, rfl, h0, h1⟩

/-- and those of `follow_declaration` -/
example : typeResolverFromDict [("width", .float)] "widht" = .error (.eng (.symbolResolution "widht")) ∧
    (∃ y, typeAdvice id [("width", .float)] "widht" = some (some y)) ∧ Writable "width" :=
  ⟨by decide +kernel, ⟨"width", one_option "width" "widht" (by decide +kernel) (q := 7 / 150) (by decide +kernel)⟩,
   ⟨by decide, by decide, by decide⟩⟩

end RE
