import Verif.Props.Consts

/-!
# C65: attributes of whole rules

`(a).n` for every text `a`: what it gives is the attribute `n` of what `a` gives, whether or not the rule was folded when
it was made.  The attributes of collections, and how they fit together.
-/

set_option linter.unusedSimpArgs false

namespace RE

/-- the text of `(a).n` -/
def attrText (a : List Char) (n : String) : List Char := par a ++ ('.' :: n.toList)

theorem attr_result_eq (env : Env) (dc : DecCtx) {v : Value} {t : DataType} {n : String} (ht : fromValue v = .ok t)
    (hn : n ∈ documentedAttributes t.kind) :
    attrResult env dc v n = (resolveAttr env v n).map (newValue env) ∧
    ∀ s, evalGetAttr env v n s = ((resolveAttr env v n).map (newValue env), s) := by
  have key : ∀ s, evalGetAttr env v n s = ((resolveAttr env v n).map (newValue env), s) := by
    intro s
    unfold evalGetAttr
    cases hr : resolveAttr env v n with
    | ok w => rfl
    | error e =>
      have : isAttrErr e = false := by
        by_contra hc
        have := (resolveAttr_not_found env v n).1 ⟨e, hr, by simpa using hc⟩
        rw [ht] at this
        simp [hn] at this
      simp [this]
      rfl
  refine ⟨?_, key⟩
  unfold attrResult
  simp only [eval, M.bind_apply, M.pure_apply, Bool.false_eq_true, and_false, if_false, key]

/-- **C65.** `(a).n` gives the attribute `n` of what `a` gives, for every text `a` and every attribute `n` that the value
has, whatever the thing and the state of the process. -/
theorem attribute_of_rule {codec : LitCodec} {env : Env} {dct : DecCtx} {a : List Char} {n : String} {l e : Expr}
    (ha : Part codec env dct a l) (hn : IsWord n.toList) (hd : n.toList.head? ≠ some '$') (acts : List TextAct)
    (h : outcome codec env dct acts (attrText a n) = .ok e) (dc : DecCtx) (thing : Value) (p : Proc) (v : Value)
    (t : DataType) (hv : (p.evaluate env l thing).1 = .ok v) (ht : fromValue v = .ok t)
    (hat : n ∈ documentedAttributes t.kind) (hb : n = "to_set" → v.isBytes = false) :
    (p.evaluate env e thing).1 = attrResult env dc v n := by
  have ha0 := ha
  obtain ⟨ra, hma, hba⟩ := ha.build
  obtain ⟨s0, hs, hout⟩ := outcome_of (env := env) (dct := dct) (acts := acts) (means_attr hma hn hd false)
  obtain ⟨s1, h1, hs1⟩ := hba s0 hs
  have htext : attrText a n = par a ++ ((if false = true then "&." else ".").toList ++ n.toList) := rfl
  rw [htext, hout] at h
  simp only [RE.build] at h
  rw [bind_ok' h1] at h
  unfold mkGetAttr at h
  have hne : v ≠ .none := by
    rintro rfl
    cases ht
    simp [DataType.kind, documentedAttributes] at hat
  have hres := attr_result_eq env dc ht hat
  rw [hres.1]
  rcases hc : checkAttr l.rt (String.ofList n.toList) false with err | u
  · rw [hc] at h; cases h
  rw [hc, lift_ok_bind, M.ite_app] at h
  simp only [Proc.evaluate, ruleEval] at hv ⊢
  rw [String.ofList_toList] at h
  rcases hl : eval env env.decCtx thing l p.st.reset with ⟨x, s2⟩
  rw [hl] at hv
  simp only at hv
  subst hv
  by_cases hred : l.reduced = true
  · rw [if_pos hred] at h
    have hlit := part_literal ha0 hred hl
    obtain ⟨y, hy⟩ := reduced_const env l hred
    have hyv : y = .ok v := by
      rw [hy] at hl
      cases hl
      rfl
    subst hyv
    have hnode : eval env dct .none (.getAttr l n false) s1 = ((resolveAttr env v n).map (newValue env), s1) := by
      simp only [eval, hy, M.bind_apply, Bool.false_eq_true, and_false, if_false]
      exact hres.2 s1
    rcases hr : resolveAttr env v n with err | w
    · rw [hr] at hnode
      unfold foldLit at h
      rw [bind_err' (bind_err' hnode)] at h
      cases h
    have hw := newValue_literal (resolveAttr_literal hlit hb hr)
    rw [hr] at hnode
    unfold foldLit at h
    rw [bind_assoc, bind_ok' hnode] at h
    rcases hlo : litOf env.utcoffset (newValue env w) with err | e'
    · rw [hlo] at h; cases h
    rw [hlo, lift_ok_bind] at h
    simp only [litOf, except_bind_ok, Except.ok.injEq] at hlo
    obtain ⟨-, -, rfl⟩ := hlo
    have hev := eval_ofValue_literal env env.decCtx thing _ hw
    show (eval env env.decCtx thing e p.st.reset).1 = .ok (newValue env w)
    have hex : eval env env.decCtx thing e = pure (newValue env w) := by
      rw [← hev]
      generalize Expr.ofValue env.utcoffset (newValue env w) = g at h
      cases g
      case lit x u =>
        cases u
        case function =>
          simp only at h
          split at h <;> (cases h; rfl)
        all_goals (cases h; rfl)
      all_goals (cases h; rfl)
    rw [hex]
    rfl
  · rw [if_neg hred] at h
    cases h
    simp only [eval, M.bind_apply, hl, Bool.false_eq_true, and_false, if_false, hres.2]

/-- the kinds of values that can be iterated over -/
theorem members_kinds {v : Value} {xs : List Value} {t : DataType} (hm : v.members = .ok xs) (ht : fromValue v = .ok t) :
    (v.len = xs.length) ∧ ((∃ s, v = .str s ∧ t = .string) ∨ (∃ b, v = .bytes b ∧ t = .bytes) ∨
      (∃ k ys m, v = .seq k ys ∧ t = .array m true) ∨ (∃ ys m, v = .set ys ∧ t = .set m true) ∨
      ∃ k kvs a b, v = .map k kvs ∧ t = .mapping a b true) := by
  cases v <;> simp only [Value.members, Except.ok.injEq, reduceCtorEq] at hm <;> subst hm
  case str s => cases ht; exact ⟨by simp [Value.len], .inl ⟨s, rfl, rfl⟩⟩
  case bytes b => cases ht; exact ⟨by simp [Value.len], .inr (.inl ⟨b, rfl, rfl⟩)⟩
  case seq k ys =>
    simp only [fromValue, except_bind_ok, Except.ok.injEq] at ht
    obtain ⟨ts, -, rfl⟩ := ht
    exact ⟨by simp [Value.len], .inr (.inr (.inl ⟨k, ys, _, rfl, rfl⟩))⟩
  case set ys =>
    simp only [fromValue, except_bind_ok, Except.ok.injEq] at ht
    obtain ⟨ts, -, rfl⟩ := ht
    exact ⟨by simp [Value.len], .inr (.inr (.inr (.inl ⟨ys, _, rfl, rfl⟩)))⟩
  case map k kvs =>
    simp only [fromValue, except_bind_ok] at ht
    obtain ⟨ks, -, vs, -, ht⟩ := ht
    unfold mkMappingType at ht
    split at ht <;> cases ht
    exact ⟨by simp [Value.len], .inr (.inr (.inr (.inr ⟨k, kvs, _, _, rfl, rfl⟩)))⟩

theorem resolve_simple {env : Env} {v w : Value} {n : String} {t u : DataType} {k : AttrKind} (ht : fromValue v = .ok t)
    (hk : attrKind t = some k) (hf : attrTypeFn k n = some fun _ => u) (hr : attrValue env k n v = .ok w)
    (hu : fromValue (coerce env.utcoffset w) = .ok u) (hc : DataType.compat u u = true) :
    resolveAttr env v n = .ok (coerce env.utcoffset w) := by
  unfold resolveAttr
  simp only [ht, hk, hf, hr, except_ok_bind, (coerceVerify_iff env.utcoffset w _).2 ⟨rfl, _, hu⟩, hu, hc, if_true]

theorem length_value (env : Env) {v : Value} {xs : List Value} {t : DataType} (hm : v.members = .ok xs)
    (ht : fromValue v = .ok t) : "length" ∈ documentedAttributes t.kind ∧ "is_empty" ∈ documentedAttributes t.kind ∧
      resolveAttr env v "length" = .ok (.dec (.ofInt xs.length)) ∧
      resolveAttr env v "is_empty" = .ok (.bool xs.isEmpty) := by
  obtain ⟨hlen, hk⟩ := members_kinds hm ht
  have he : (v.len == 0) = xs.isEmpty := by rw [hlen]; cases xs <;> rfl
  rw [← he, ← hlen]
  rcases hk with ⟨s, rfl, rfl⟩ | ⟨b, rfl, rfl⟩ | ⟨k, ys, m, rfl, rfl⟩ | ⟨ys, m, rfl, rfl⟩ | ⟨k, kvs, a, b, rfl, rfl⟩ <;>
    exact ⟨by simp [DataType.kind, documentedAttributes], by simp [DataType.kind, documentedAttributes],
      resolve_simple (w := .int _) ht rfl rfl rfl rfl rfl, resolve_simple (w := .bool _) ht rfl rfl rfl rfl rfl⟩

/-- **C65.** `(a).length` is the number of members that iterating over `a` goes through, and `(a).is_empty` says whether
there are none; neither ever raises, for any string, bytes, array, set or mapping. -/
theorem length_of_rule {codec : LitCodec} {env : Env} {dct : DecCtx} {a : List Char} {l e e' : Expr}
    (ha : Part codec env dct a l) (acts acts' : List TextAct)
    (h : outcome codec env dct acts (attrText a "length") = .ok e)
    (h' : outcome codec env dct acts' (attrText a "is_empty") = .ok e') (thing : Value) (p : Proc) (v : Value)
    (t : DataType) (xs : List Value) (hv : (p.evaluate env l thing).1 = .ok v) (ht : fromValue v = .ok t)
    (hm : v.members = .ok xs) :
    (p.evaluate env e thing).1 = .ok (.dec (.ofInt xs.length)) ∧
    (p.evaluate env e' thing).1 = .ok (.bool (decide (xs.length = 0))) := by
  obtain ⟨h1, h2, h3, h4⟩ := length_value env hm ht
  constructor
  · rw [attribute_of_rule ha ⟨by decide, by decide⟩ (by decide) acts h env.decCtx thing p v t hv ht h1 (fun h => absurd h (by decide)),
      attr_of_resolve _ _ _ _ _ h3]
    rfl
  · rw [attribute_of_rule ha ⟨by decide, by decide⟩ (by decide) acts' h' env.decCtx thing p v t hv ht h2 (fun h => absurd h (by decide)),
      attr_of_resolve _ _ _ _ _ h4]
    cases xs <;> rfl

theorem resolve_ok {env : Env} {v w : Value} {n : String} {t : DataType} {k : AttrKind} (ht : fromValue v = .ok t)
    (hk : attrKind t = some k) (h : resolveAttr env v n = .ok w) :
    ∃ r, attrValue env k n v = .ok r ∧ w = coerce env.utcoffset r := by
  unfold resolveAttr at h
  rw [ht] at h
  simp only [hk] at h
  split at h
  · cases h
  · simp only [except_bind_ok] at h
    obtain ⟨r, hr, w', hw, vt, -, h⟩ := h
    split at h
    · cases h
      exact ⟨r, hr, ((coerceVerify_iff _ _ _).1 hw).1⟩
    · cases h

/-- **C65.** `(a).to_ary` is the array of the (normalised) members of `a`, in the order of iteration. -/
theorem to_ary_of_rule {codec : LitCodec} {env : Env} {dct : DecCtx} {a : List Char} {l e : Expr}
    (ha : Part codec env dct a l) (acts : List TextAct) (h : outcome codec env dct acts (attrText a "to_ary") = .ok e)
    (thing : Value) (p : Proc) (v : Value) (t : DataType) (xs : List Value)
    (hv : (p.evaluate env l thing).1 = .ok v) (ht : fromValue v = .ok t) (hm : v.members = .ok xs)
    (hmap : ∀ k kvs, v ≠ .map k kvs) (r : Value) (hr : (p.evaluate env e thing).1 = .ok r) :
    r = .tuple (xs.map (coerce env.utcoffset)) := by
  obtain ⟨-, hk⟩ := members_kinds hm ht
  have hat : "to_ary" ∈ documentedAttributes t.kind := by
    rcases hk with ⟨s, rfl, rfl⟩ | ⟨b, rfl, rfl⟩ | ⟨k, ys, m, rfl, rfl⟩ | ⟨ys, m, rfl, rfl⟩ | ⟨k, kvs, a, b, rfl, rfl⟩
    case inr.inr.inr.inr => exact absurd rfl (hmap k kvs)
    all_goals simp [DataType.kind, documentedAttributes]
  rw [attribute_of_rule ha ⟨by decide, by decide⟩ (by decide) acts h env.decCtx thing p v t hv ht hat (fun h => absurd h (by decide)),
    (attr_result_eq env _ ht hat).1] at hr
  rcases hw : resolveAttr env v "to_ary" with err | w
  · rw [hw] at hr; cases hr
  rw [hw] at hr
  cases hr
  have : ∃ k, attrKind t = some k ∧ attrValue env k "to_ary" v = .ok (.tuple xs) := by
    rcases hk with ⟨s, rfl, rfl⟩ | ⟨b, rfl, rfl⟩ | ⟨k, ys, m, rfl, rfl⟩ | ⟨ys, m, rfl, rfl⟩ | ⟨k, kvs, a, b, rfl, rfl⟩
    case inr.inr.inr.inr => exact absurd rfl (hmap k kvs)
    all_goals exact ⟨_, rfl, by simp [attrValue, hm, except_ok_bind]⟩
  obtain ⟨k, hk1, hk2⟩ := this
  obtain ⟨r, hr, rfl⟩ := resolve_ok ht hk1 hw
  rw [hk2] at hr
  cases hr
  simp only [newValue, coerce, coerceList_eq_map, List.map_map, localise]
  congr 1
  exact List.map_congr_left fun x _ => coerce_idem _ x

/-- Specification: `ys` is `xs` without repetitions (of values that are equal). -/
structure Distinct (off : TzDb) (xs ys : List Value) : Prop where
  from_xs : ∀ y ∈ ys, y ∈ xs
  all_of_xs : ∀ x ∈ xs, x ∈ ys ∨ ∃ y ∈ ys, pyEq off y x = true
  different : ys.Pairwise fun a b => pyEq off a b = false

theorem setFold_covers {off : TzDb} : ∀ (xs acc : List Value), (∀ y ∈ acc, y ∈ xs.foldl (setAdd off) acc) ∧
    ∀ x ∈ xs, x ∈ xs.foldl (setAdd off) acc ∨ ∃ y ∈ xs.foldl (setAdd off) acc, pyEq off y x = true
  | [], acc => ⟨fun _ h => h, by simp⟩
  | x :: xs, acc => by
    have ih := setFold_covers (off := off) xs (setAdd off acc x)
    simp only [List.foldl_cons, List.mem_cons, forall_eq_or_imp]
    have hsub : ∀ y ∈ acc, y ∈ setAdd off acc x := by
      intro y hy
      unfold setAdd
      split
      · exact hy
      · exact List.mem_append_left _ hy
    refine ⟨fun y hy => ih.1 y (hsub y hy), ?_, ih.2⟩
    by_cases hx : acc.any (fun y => pyEq off y x) = true
    · obtain ⟨y, hy, hyx⟩ := List.any_eq_true.1 hx
      exact .inr ⟨y, ih.1 y (hsub y hy), hyx⟩
    · refine .inl (ih.1 x ?_)
      unfold setAdd
      rw [if_neg hx]
      simp

theorem setOfList_distinct {off : TzDb} {xs ys : List Value} (h : setOfList off xs = .ok ys) : Distinct off xs ys := by
  have hm := setOfList_mem h
  unfold setOfList at h
  split at h
  · cases h
    exact ⟨hm, (setFold_covers xs []).2, setFold_pairwise List.Pairwise.nil⟩
  · cases h

/-- **C65.** `(a).to_set` is the set of the members of `a`: each of them, or one equal to it, exactly once. -/
theorem to_set_of_rule {codec : LitCodec} {env : Env} {dct : DecCtx} {a : List Char} {l e : Expr}
    (ha : Part codec env dct a l) (acts : List TextAct) (h : outcome codec env dct acts (attrText a "to_set") = .ok e)
    (thing : Value) (p : Proc) (v : Value) (t : DataType) (xs : List Value)
    (hv : (p.evaluate env l thing).1 = .ok v) (ht : fromValue v = .ok t) (hm : v.members = .ok xs)
    (hmap : ∀ k kvs, v ≠ .map k kvs) (hbytes : ∀ b, v ≠ .bytes b) (r : Value)
    (hr : (p.evaluate env e thing).1 = .ok r) :
    ∃ ys, r = .set ys ∧ Distinct env.utcoffset xs ys := by
  obtain ⟨-, hk⟩ := members_kinds hm ht
  have hat : "to_set" ∈ documentedAttributes t.kind := by
    rcases hk with ⟨s, rfl, rfl⟩ | ⟨b, rfl, rfl⟩ | ⟨k, ys, m, rfl, rfl⟩ | ⟨ys, m, rfl, rfl⟩ | ⟨k, kvs, a, b, rfl, rfl⟩
    case inr.inr.inr.inr => exact absurd rfl (hmap k kvs)
    all_goals simp [DataType.kind, documentedAttributes]
  have hnb : v.isBytes = false := by
    cases v
    case bytes b => exact absurd rfl (hbytes b)
    all_goals rfl
  rw [attribute_of_rule ha ⟨by decide, by decide⟩ (by decide) acts h env.decCtx thing p v t hv ht hat (fun _ => hnb),
    (attr_result_eq env _ ht hat).1] at hr
  rcases hw : resolveAttr env v "to_set" with err | w
  · rw [hw] at hr; cases hr
  rw [hw] at hr
  cases hr
  have : ∃ k, attrKind t = some k ∧ ∀ r, attrValue env k "to_set" v = .ok r →
      ∃ ys, setOfList env.utcoffset xs = .ok ys ∧ r = .set ys := by
    rcases hk with ⟨s, rfl, rfl⟩ | ⟨b, rfl, rfl⟩ | ⟨k, ys, m, rfl, rfl⟩ | ⟨ys, m, rfl, rfl⟩ | ⟨k, kvs, a, b, rfl, rfl⟩
    case inr.inr.inr.inr => exact absurd rfl (hmap k kvs)
    all_goals
      refine ⟨_, rfl, fun r hr => ?_⟩
      simp only [attrValue, hm, except_bind_ok, Except.ok.injEq] at hr
      obtain ⟨_, rfl, ys, hy, rfl⟩ := hr
      exact ⟨ys, hy, rfl⟩
  obtain ⟨k, hk1, hk2⟩ := this
  obtain ⟨r, hr, rfl⟩ := resolve_ok ht hk1 hw
  obtain ⟨ys, hys, rfl⟩ := hk2 r hr
  exact ⟨ys, rfl, setOfList_distinct hys⟩

/-- **C65.** `(a).keys` and `(a).values` of a mapping are its (normalised) keys and the values that go with them, in the
same order. -/
theorem keys_values_of_rule {codec : LitCodec} {env : Env} {dct : DecCtx} {a : List Char} {l e e' : Expr}
    (ha : Part codec env dct a l) (acts acts' : List TextAct)
    (h : outcome codec env dct acts (attrText a "keys") = .ok e)
    (h' : outcome codec env dct acts' (attrText a "values") = .ok e') (thing : Value) (p : Proc) (k : MapKind)
    (kvs : List (Value × Value)) (t : DataType) (hv : (p.evaluate env l thing).1 = .ok (.map k kvs))
    (ht : fromValue (.map k kvs) = .ok t) (r r' : Value) (hr : (p.evaluate env e thing).1 = .ok r)
    (hr' : (p.evaluate env e' thing).1 = .ok r') :
    r = .tuple (kvs.map fun q => coerce env.utcoffset q.1) ∧ r' = .tuple (kvs.map fun q => coerce env.utcoffset q.2) := by
  obtain ⟨-, hk⟩ := members_kinds rfl ht
  simp only [reduceCtorEq, false_and, exists_false, false_or, Value.map.injEq] at hk
  obtain ⟨_, _, tk, tv, -, rfl⟩ := hk
  have hat : "keys" ∈ documentedAttributes (DataType.mapping tk tv true).kind := by simp [DataType.kind, documentedAttributes]
  have hat' : "values" ∈ documentedAttributes (DataType.mapping tk tv true).kind := by simp [DataType.kind, documentedAttributes]
  constructor
  · rw [attribute_of_rule ha ⟨by decide, by decide⟩ (by decide) acts h env.decCtx thing p _ _ hv ht hat (fun h => absurd h (by decide)),
      (attr_result_eq env _ ht hat).1] at hr
    rcases hw : resolveAttr env (.map k kvs) "keys" with err | w
    · rw [hw] at hr; cases hr
    rw [hw] at hr
    cases hr
    obtain ⟨r, hr, rfl⟩ := resolve_ok ht rfl hw
    cases hr
    simp only [newValue, coerce, coerceList_eq_map, List.map_map, localise]
    congr 1
    exact List.map_congr_left fun x _ => coerce_idem _ _
  · rw [attribute_of_rule ha ⟨by decide, by decide⟩ (by decide) acts' h' env.decCtx thing p _ _ hv ht hat' (fun h => absurd h (by decide)),
      (attr_result_eq env _ ht hat').1] at hr'
    rcases hw : resolveAttr env (.map k kvs) "values" with err | w
    · rw [hw] at hr'; cases hr'
    rw [hw] at hr'
    cases hr'
    obtain ⟨r, hr, rfl⟩ := resolve_ok ht rfl hw
    cases hr
    simp only [newValue, coerce, coerceList_eq_map, List.map_map, localise]
    congr 1
    exact List.map_congr_left fun x _ => coerce_idem _ _

/-- The hypotheses are met: `(x).length`, `(x).is_empty`, `(x).to_ary` and `(x).to_set` on an array with a repetition,
`(x).keys` and `(x).values` on a mapping. -/
example (codec : LitCodec) : ∃ l e1 e2 e3 e4 e5 e6,
    Part codec sampleEnv .default ['x'] l ∧
    outcome codec sampleEnv .default [] (attrText ['x'] "length") = .ok e1 ∧
    outcome codec sampleEnv .default [] (attrText ['x'] "is_empty") = .ok e2 ∧
    outcome codec sampleEnv .default [] (attrText ['x'] "to_ary") = .ok e3 ∧
    outcome codec sampleEnv .default [] (attrText ['x'] "to_set") = .ok e4 ∧
    outcome codec sampleEnv .default [] (attrText ['x'] "keys") = .ok e5 ∧
    outcome codec sampleEnv .default [] (attrText ['x'] "values") = .ok e6 ∧
    let thing := dictOf [("x", .seq .list [.int 3, .str "u", .int 3])]
    let xs := [.dec (.ofInt 3), .str "u", .dec (.ofInt 3)]
    (Proc.new.evaluate sampleEnv l thing).1 = .ok (.tuple xs) ∧ (Value.tuple xs).members = .ok xs ∧
    (Proc.new.evaluate sampleEnv e1 thing).1 = .ok (.dec (.ofInt 3)) ∧
    (Proc.new.evaluate sampleEnv e2 thing).1 = .ok (.bool false) ∧
    (Proc.new.evaluate sampleEnv e3 thing).1 = .ok (.tuple xs) ∧
    (Proc.new.evaluate sampleEnv e4 thing).1 = .ok (.set [.dec (.ofInt 3), .str "u"]) ∧
    let thing := dictOf [("x", .map .dict [(.str "k", .int 1), (.int 2, .none)])]
    (Proc.new.evaluate sampleEnv e5 thing).1 = .ok (.tuple [.str "k", .dec (.ofInt 2)]) ∧
    (Proc.new.evaluate sampleEnv e6 thing).1 = .ok (.tuple [.dec (.ofInt 1), .none]) := by
  have hx : Means codec ['x'] (.sym "x" false) := means_sym x_word
  have hm : ∀ n : String, IsWord n.toList → n.toList.head? ≠ some '$' →
      Means codec (attrText ['x'] n) (.getAttr (.sym "x" false) n false) := by
    intro n h1 h2
    have := means_attr hx h1 h2 false
    rwa [String.ofList_toList] at this
  refine ⟨_, _, _, _, _, _, _, ⟨⟨_, hx⟩, [], (rule_of_means hx).trans rfl⟩,
    (rule_of_means (hm "length" ⟨by decide, by decide⟩ (by decide))).trans rfl,
    (rule_of_means (hm "is_empty" ⟨by decide, by decide⟩ (by decide))).trans rfl,
    (rule_of_means (hm "to_ary" ⟨by decide, by decide⟩ (by decide))).trans rfl,
    (rule_of_means (hm "to_set" ⟨by decide, by decide⟩ (by decide))).trans rfl,
    (rule_of_means (hm "keys" ⟨by decide, by decide⟩ (by decide))).trans rfl,
    (rule_of_means (hm "values" ⟨by decide, by decide⟩ (by decide))).trans rfl, ?_⟩
  decide +kernel

end RE
