import Verif.Props.RuleBuiltins
import Verif.Props.WellFormed

/-!
# Laws of comprehensions between whole rules (C80)
-/

set_option linter.unusedSimpArgs false
set_option linter.unusedVariables false
set_option linter.unusedSectionVars false

namespace RE

/-! ### Specification -/

/-- The text `[r for x in a if c]`. -/
def whereText (r x a c : List Char) : List Char :=
  '[' :: (r ++ (" for ".toList ++ (x ++ (" in ".toList ++ (a ++ (" if ".toList ++ (c ++ [']'])))))))

/-- **Specification.** The rule `a` is accepted and gives a collection or a text with the members `xs`, the name `x` is a
plain name, and a variable `x` that runs over `a` is declared as `T`. -/
structure Ranges (codec : LitCodec) (env : Env) (thing : Value) (p : Proc) (x a : List Char) (T : DataType)
    (xs : List Value) : Prop where
  word : IsWord x
  plain : x.head? ≠ some '$'
  noGroups : NoGroups codec a
  over : ∃ l w t, Part codec env env.decCtx a l ∧ VarType l.rt T ∧ (p.evaluate env l thing).1 = .ok w ∧
    fromValue w = .ok t ∧ t.isIterable = true ∧ w.members = .ok xs

section
variable {codec : LitCodec} {env : Env} {thing : Value} {p : Proc} {a c d r x : List Char} {T : DataType} {xs : List Value}
  {y y' z : Except Err Value}

theorem Clear.mean {x : String} (h : Clear codec x c) : ∃ raw, Means codec c raw := by
  obtain ⟨raw, hm, -⟩ := h
  exact ⟨raw, hm⟩

theorem clear_bin {x : String} {k : Kind} (hk : k ∈ binaryKinds) (hc : Clear codec x c) (hd : Clear codec x d) :
    Clear codec x (binText c k d) := by
  obtain ⟨rc, h1, h2, h3, h4⟩ := hc
  obtain ⟨rd, k1, k2, k3, k4⟩ := hd
  refine ⟨_, means_bin h1 k1 k hk, ?_, ?_, ?_⟩
  · simp only [Raw.NoShadow]; exact ⟨h2, k2⟩
  · simp only [Raw.attrNames, List.mem_append]; exact fun h => h.elim h3 k3
  · simp only [Raw.uses, List.mem_append]; exact fun u hu => hu.elim (h4 u) (k4 u)

/-- what `[r for x in a]` gives, from what `r` gives for the members -/
theorem Ranges.each (ha : Ranges codec env thing p x a T xs) (hr : Clear codec (String.ofList x) r)
    (h : Outcome codec env thing p (eachText r x a) z) :
    ∃ g : Value → Except Err Value, (∀ m, Outcome codec (env.bindVar (String.ofList x) T m) thing p r (g m)) ∧
      z = (eachOn (fun _ => .ok (.bool true)) g xs).map .tuple := by
  obtain ⟨l, w, t, h1, h2, h3, h4, h5, h6⟩ := ha.over
  obtain ⟨g, hg, e⟩ := h.each ha.word h1 h2 h3 h4 h5 h6 hr
  exact ⟨g, hg, by rw [e, eachOn_all]⟩

/-- what `[r for x in a if c]` gives, from what `c` and `r` give for the members -/
theorem Ranges.eachIf (ha : Ranges codec env thing p x a T xs) (hc : Clear codec (String.ofList x) c)
    (hr : Clear codec (String.ofList x) r) (h : Outcome codec env thing p (whereText r x a c) z) :
    ∃ f g : Value → Except Err Value, (∀ m, Outcome codec (env.bindVar (String.ofList x) T m) thing p c (f m)) ∧
      (∀ m, Outcome codec (env.bindVar (String.ofList x) T m) thing p r (g m)) ∧ z = (eachOn f g xs).map .tuple := by
  obtain ⟨l, w, t, hl, hT, hw, ht, hi, hm⟩ := ha.over
  obtain ⟨e, he, rfl⟩ := h
  obtain ⟨acts, ho⟩ := he.outcome
  have hacc := (comprehension_accepted ha.word hl hc hr acts [] []).1 T .none hT
  rw [whereText] at ho
  rw [ho] at hacc
  cases h1 : outcome codec (env.bindVar (String.ofList x) T .none) env.decCtx [] c with
  | error e => rw [h1] at hacc; cases hacc
  | ok j =>
    cases h2 : outcome codec (env.bindVar (String.ofList x) T .none) env.decCtx [] r with
    | error e => rw [h1, h2] at hacc; cases hacc
    | ok i =>
      have hj : Part codec (env.bindVar (String.ofList x) T .none) env.decCtx c j := ⟨hc.mean, [], h1⟩
      have hi' : Part codec (env.bindVar (String.ofList x) T .none) env.decCtx r i := ⟨hr.mean, [], h2⟩
      refine ⟨fun m => (p.evaluate (env.bindVar (String.ofList x) T m) j thing).1,
        fun m => (p.evaluate (env.bindVar (String.ofList x) T m) i thing).1, fun m => ⟨j, part_any hc hj m, rfl⟩,
        fun m => ⟨i, part_any hr hi' m, rfl⟩, ?_⟩
      rw [comprehension_of_rules ha.word hl hT hj hc hi' hr acts ho thing p, hw]
      simp only [compOn, except_ok_bind, ht, hi, if_true, hm]
      cases eachOn (fun m => (p.evaluate (env.bindVar (String.ofList x) T m) j thing).1)
        (fun m => (p.evaluate (env.bindVar (String.ofList x) T m) i thing).1) xs <;> rfl

/-! ### The variable itself -/

theorem word_raw (hx : IsWord x) (hd : x.head? ≠ some '$') : Means codec x (.sym (String.ofList x) false) := by
  have := means_sym (codec := codec) hx
  rw [symRaw_eq] at this
  cases x with
  | nil => exact absurd hx.1 (by decide)
  | cons k ks =>
    have hk : k ≠ '$' := by simpa using hd
    simpa [wordName, wordBuiltin, hk] using this

theorem clear_word (hx : IsWord x) (hd : x.head? ≠ some '$') : Clear codec (String.ofList x) x :=
  ⟨_, word_raw hx hd, by simp [Raw.NoShadow], by simp [Raw.attrNames], by simp [Raw.uses]⟩

/-- the variable gives the member (a date without a time zone gets the time zone of the context), or the type check fails -/
theorem word_gives (hx : IsWord x) (hd : x.head? ≠ some '$') {m v : Value}
    (h : Outcome codec (env.bindVar (String.ofList x) T m) thing p x (.ok v)) : v = newValue env m := by
  obtain ⟨e, he, hv⟩ := h
  obtain ⟨raw, hm, hb⟩ := he.build
  cases means_unique hm (word_raw hx hd)
  obtain ⟨s', hb, -⟩ := hb St.init rfl
  simp only [build, mkSym, M.bind_eq_ok] at hb
  obtain ⟨_, s1, -, t, s2, -, hb⟩ := hb
  cases hb
  simp only [Proc.evaluate, ruleEval, eval, evalSymbol, M.bind_apply, M.catchErr, ctxResolve, Bool.false_eq_true,
    if_false, St.reset, scopeLookup] at hv
  simp [Env.bindVar, Env.alt, M.lift_apply] at hv
  exact checkSymbol_ok hv

theorem localise_idem (env : Env) (w : Value) : localise env (localise env w) = localise env w := by
  cases w with
  | datetime us tz => cases tz <;> rfl
  | _ => rfl

theorem newValue_idem (env : Env) (v : Value) : newValue env (newValue env v) = newValue env v := by
  unfold newValue
  have h := coerce_idem env.utcoffset v
  generalize coerce env.utcoffset v = w at h ⊢
  have h' : coerce env.utcoffset (localise env w) = localise env w := by
    unfold localise
    split
    · rfl
    · exact h
  rw [h', localise_idem]

/-- a rule gives the same for the member and for what the variable gives for it -/
theorem same_for_value {m : Value} (hr : Clear codec (String.ofList x) r)
    (h : Outcome codec (env.bindVar (String.ofList x) T m) thing p r y) :
    Outcome codec (env.bindVar (String.ofList x) T (newValue env m)) thing p r y := by
  obtain ⟨e, he, rfl⟩ := h
  have he' := part_any hr he (newValue env m)
  refine ⟨e, he', ?_⟩
  obtain ⟨raw, hm, -, ha, -⟩ := hr
  obtain ⟨raw', hm', hb⟩ := he.build
  cases means_unique hm hm'
  obtain ⟨s', hb, -⟩ := hb St.init rfl
  have hn := build_names raw hb
  have hR : RelClosed (fun {α : Type} (m m' : M α) => m = m') := { eq_base with withScope := by rintro _ _ _ _ rfl; rfl }
  have key := eval_rel hR (env := env.bindVar (String.ofList x) T m)
    (r := (env.bindVar (String.ofList x) T (newValue env m)).resolver)
    (t := (env.bindVar (String.ofList x) T (newValue env m)).typeResolver) (d := env.defaultValue) (dc := env.decCtx)
    (thing := thing) (thing' := thing) (P := fun _ _ _ => True) (Q := (· ≠ String.ofList x)) ?_ ?_ e
    (e.allNames_mono (fun _ _ _ _ => trivial) (fun n hn (e : n = String.ofList x) => ha (e ▸ hn)) hn)
  · have h2 : (env.bindVar (String.ofList x) T m).alt (env.bindVar (String.ofList x) T (newValue env m)).resolver
        (env.bindVar (String.ofList x) T (newValue env m)).typeResolver env.defaultValue =
        env.bindVar (String.ofList x) T (newValue env m) := rfl
    rw [h2] at key
    have := congrArg (fun f => (f p.st.reset).1) key
    exact this.symm
  · intro name rt b _
    funext s
    cases b with
    | true => rfl
    | false =>
      simp only [evalSymbol, M.bind_apply, M.catchErr, ctxResolve, Bool.false_eq_true, if_false]
      cases hs : scopeLookup s.scopes name with
      | some a => simp only; rfl
      | none =>
        by_cases hx : name = String.ofList x
        · subst hx
          simp only [Env.bindVar, Env.alt, if_true, M.lift_apply]
          exact congrArg (fun v => (checkSymbol (String.ofList x) rt v, _)) (newValue_idem env m).symm
        · simp only [Env.bindVar, Env.alt, if_neg hx]
          rfl
  · intro o name hn
    funext s
    have hc : ctxResolve (env.bindVar (String.ofList x) T m) o name false =
        ctxResolve (env.bindVar (String.ofList x) T (newValue env m)) o name false := by
      funext s
      simp only [ctxResolve, Env.bindVar, Env.alt, if_neg hn, Bool.false_eq_true, if_false]
    simp only [evalGetAttr]
    have h3 : resolveAttr ((env.bindVar (String.ofList x) T m).alt (env.bindVar (String.ofList x) T (newValue env m)).resolver
        (env.bindVar (String.ofList x) T (newValue env m)).typeResolver env.defaultValue) o name =
        resolveAttr (env.bindVar (String.ofList x) T m) o name := rfl
    rw [h3, hc]
    rfl

/-! ### Lists -/

theorem eachOn_congr {f f' g g' : Value → Except Err Value} (h1 : ∀ m ∈ xs, f m = f' m)
    (h2 : ∀ m ∈ xs, g m = g' m) : eachOn f g xs = eachOn f' g' xs := by
  induction xs with
  | nil => rfl
  | cons v vs ih =>
    simp only [eachOn, h1 v (by simp), h2 v (by simp),
      ih (fun m hm => h1 m (by simp [hm])) (fun m hm => h2 m (by simp [hm]))]

theorem eachOn_ok {f g : Value → Except Err Value} {ys : List Value} (h : eachOn f g xs = .ok ys) :
    ∃ F G : Value → Value, (∀ m ∈ xs, f m = .ok (F m)) ∧ (∀ m ∈ xs, (F m).truthy = true → g m = .ok (G m)) ∧
      ys = (xs.filter fun m => (F m).truthy).map G := by
  refine ⟨fun m => match f m with | .ok v => v | .error _ => .none, fun m => match g m with | .ok v => v | .error _ => .none, ?_⟩
  induction xs generalizing ys with
  | nil => cases h; simp
  | cons v vs ih =>
    simp only [eachOn, except_bind_ok] at h
    obtain ⟨w, hw, h⟩ := h
    by_cases ht : w.truthy = true
    · rw [if_pos ht] at h
      simp only [except_bind_ok] at h
      obtain ⟨u, hu, us, hus, h⟩ := h
      cases h
      obtain ⟨h1, h2, h3⟩ := ih hus
      refine ⟨fun m hm => ?_, fun m hm ht => ?_, ?_⟩
      · rcases List.mem_cons.1 hm with rfl | hm
        · simp only [hw]
        · exact h1 m hm
      · rcases List.mem_cons.1 hm with rfl | hm
        · simp only [hu]
        · exact h2 m hm ht
      · rw [List.filter_cons]
        simp only [hw, ht, if_true, List.map_cons, hu]
        rw [← h3]
    · rw [if_neg ht] at h
      obtain ⟨h1, h2, h3⟩ := ih h
      refine ⟨fun m hm => ?_, fun m hm hq => ?_, ?_⟩
      · rcases List.mem_cons.1 hm with rfl | hm
        · simp only [hw]
        · exact h1 m hm
      · rcases List.mem_cons.1 hm with rfl | hm
        · simp only [hw] at hq; exact (ht hq).elim
        · exact h2 m hm hq
      · rw [List.filter_cons]
        simp only [hw, ht, if_false, Bool.false_eq_true]
        exact h3

theorem eachOn_filter {f h : Value → Except Err Value} {n : Value → Value} {ys : List Value}
    (hh : ∀ m v, h m = .ok v → v = n m) (hi : eachOn f h xs = .ok ys) {d d' g g' : Value → Except Err Value}
    (e1 : ∀ m, d' (n m) = d m) (e2 : ∀ m, g' (n m) = g m) (env : Env) :
    eachOn d' g' ys = eachOn (fun m => BinOp.and.on env (f m) (d m)) g xs := by
  induction xs generalizing ys with
  | nil => cases hi; rfl
  | cons v vs ih =>
    simp only [eachOn, except_bind_ok] at hi
    obtain ⟨w, hw, hi⟩ := hi
    by_cases ht : w.truthy = true
    · rw [if_pos ht] at hi
      simp only [except_bind_ok] at hi
      obtain ⟨u, hu, us, hus, hi⟩ := hi
      cases hi
      have := hh v u hu
      subst this
      simp only [eachOn, e1, e2, ih hus, hw, BinOp.on, except_ok_bind, ht, if_true]
      cases d v with
      | error e => rfl
      | ok q => simp only [except_ok_bind, truthy_bool]; rfl
    · rw [if_neg ht] at hi
      simp only [eachOn, ih hi, hw, BinOp.on, except_ok_bind, ht, if_false, truthy_bool, Bool.false_eq_true]

/-! ### Laws -/

theorem Ranges.values {w : Value} (ha : Ranges codec env thing p x a T xs) (h : Outcome codec env thing p a (.ok w)) :
    w.members = .ok xs ∧ ∃ t, fromValue w = .ok t := by
  obtain ⟨l, w', t, h1, h2, h3, h4, h5, h6⟩ := ha.over
  cases h.unique (⟨l, h1, h3⟩ : Outcome codec env thing p a (.ok w'))
  exact ⟨h6, t, h4⟩

theorem Ranges.outcome (ha : Ranges codec env thing p x a T xs) : ∃ w, Outcome codec env thing p a (.ok w) := by
  obtain ⟨l, w, t, h1, h2, h3, -⟩ := ha.over
  exact ⟨w, l, h1, h3⟩

theorem Ranges.clear (ha : Ranges codec env thing p x a T xs) : Clear codec (String.ofList x) x := clear_word ha.word ha.plain

theorem map_tuple {e : Except Err (List Value)} {v : Value} (h : e.map .tuple = .ok v) : ∃ ys, e = .ok ys ∧ v = .tuple ys := by
  cases e with
  | error e => cases h
  | ok ys => cases h; exact ⟨ys, rfl, rfl⟩

/-- **C80.** `[x for x in a]` gives the array of the members of what `a` gives, in order, if it gives anything (dates
without time zone get the one of the context). -/
theorem each_itself {v : Value} (ha : Ranges codec env thing p x a T xs)
    (h : Outcome codec env thing p (eachText x x a) (.ok v)) : v = .tuple (xs.map (newValue env)) := by
  obtain ⟨g, hg, e⟩ := ha.each ha.clear h
  obtain ⟨ys, h1, rfl⟩ := map_tuple e.symm
  obtain ⟨F, G, h2, h3, rfl⟩ := eachOn_ok h1
  have : ∀ m ∈ xs, (F m).truthy = true := by
    intro m hm
    rw [← Except.ok.inj (h2 m hm)]
    rfl
  rw [List.filter_eq_self.2 this]
  congr 1
  refine List.map_congr_left fun m hm => ?_
  have := h3 m hm (this m hm)
  exact word_gives ha.word ha.plain (this ▸ hg m)

theorem newValue_settled {m : Value} (h : Settled env m) : newValue env m = m := by
  unfold newValue
  rw [h.1]
  have := h.2
  cases m with
  | datetime us tz => cases tz <;> simp_all [Value.isNaive, localise]
  | _ => rfl

/-- **C80.** `[r for x in a]` has as many members as `a`: `([r for x in a]).length` and `(a).length` give the same, and so
do `.is_empty`. -/
theorem each_length {v : Value} {t : DataType} (ha : Ranges codec env thing p x a T xs) (hr : Clear codec (String.ofList x) r)
    (h : Outcome codec env thing p (eachText r x a) (.ok v)) (ht : fromValue v = .ok t) {y1 y2 y3 y4 : Except Err Value}
    (h1 : Outcome codec env thing p (attrText (eachText r x a) "length") y1)
    (h2 : Outcome codec env thing p (attrText a "length") y2)
    (h3 : Outcome codec env thing p (attrText (eachText r x a) "is_empty") y3)
    (h4 : Outcome codec env thing p (attrText a "is_empty") y4) :
    y1 = y2 ∧ y3 = y4 ∧ y1 = .ok (.dec (.ofInt xs.length)) := by
  obtain ⟨g, hg, e⟩ := ha.each hr h
  obtain ⟨ys, he, rfl⟩ := map_tuple e.symm
  have hlen : ys.length = xs.length := by
    obtain ⟨F, G, h2, h3, rfl⟩ := eachOn_ok he
    rw [List.length_map, List.filter_eq_self.2]
    intro m hm
    rw [← Except.ok.inj (h2 m hm)]
    rfl
  obtain ⟨l, w, t', k1, -, k3, k4, -, k6⟩ := ha.over
  obtain ⟨e0, he0, hv⟩ := h
  obtain ⟨e1, p1, rfl⟩ := h1
  obtain ⟨e2, p2, rfl⟩ := h2
  obtain ⟨e3, p3, rfl⟩ := h3
  obtain ⟨e4, p4, rfl⟩ := h4
  obtain ⟨a1, o1⟩ := p1.outcome
  obtain ⟨a2, o2⟩ := p2.outcome
  obtain ⟨a3, o3⟩ := p3.outcome
  obtain ⟨a4, o4⟩ := p4.outcome
  obtain ⟨q1, q3⟩ := length_of_rule he0 a1 a3 o1 o3 thing p _ t ys hv ht rfl
  obtain ⟨q2, q4⟩ := length_of_rule k1 a2 a4 o2 o4 thing p _ t' xs k3 k4 k6
  rw [q1, q2, q3, q4, hlen]
  exact ⟨rfl, rfl, rfl⟩

/-- what is selected by a condition can itself be run over -/
theorem Ranges.selected {v : Value} (ha : Ranges codec env thing p x a T xs) (hc : Clear codec (String.ofList x) c)
    (hv : ∀ m ∈ xs, ∃ t, fromValue (newValue env m) = .ok t)
    (h : Outcome codec env thing p (whereText x x a c) (.ok v)) :
    ∃ ys f g, v = .tuple ys ∧ Ranges codec env thing p x (whereText x x a c) T ys ∧
      (∀ m, Outcome codec (env.bindVar (String.ofList x) T m) thing p c (f m)) ∧
      (∀ m u, g m = .ok u → u = newValue env m) ∧ eachOn f g xs = .ok ys := by
  obtain ⟨f, g, hf, hg, e⟩ := ha.eachIf hc ha.clear h
  obtain ⟨ys, he, rfl⟩ := map_tuple e.symm
  have hg' : ∀ m u, g m = .ok u → u = newValue env m := fun m u hu => word_gives ha.word ha.plain (hu ▸ hg m)
  refine ⟨ys, f, g, rfl, ⟨ha.word, ha.plain, noGroups_eachIf ha.noGroups (clear_noGroups hc) (clear_noGroups ha.clear) ha.word, ?_⟩,
    hf, hg', he⟩
  obtain ⟨l, w, t, hl, hT, -⟩ := ha.over
  obtain ⟨e0, he0, hev⟩ := h
  have hty : ∃ t, fromValue (.tuple ys) = .ok t := by
    refine seqType_ok.2 fun y hy => ?_
    obtain ⟨F, G, h2, h3, rfl⟩ := eachOn_ok he
    obtain ⟨m, hm, rfl⟩ := List.mem_map.1 hy
    obtain ⟨hm, hq⟩ := List.mem_filter.1 hm
    rw [hg' m _ (h3 m hm hq)]
    exact hv m hm
  obtain ⟨t', ht'⟩ := hty
  have hit : t'.isIterable = true := by
    simp only [fromValue, except_bind_ok] at ht'
    obtain ⟨ts, -, h⟩ := ht'
    cases h
    rfl
  refine ⟨e0, _, t', he0, ?_, hev, ht', hit, rfl⟩
  obtain ⟨acts, ho⟩ := he0.outcome
  have hacc := (comprehension_accepted ha.word hl hc ha.clear acts [] []).1 T .none hT
  rw [whereText] at ho
  rw [ho] at hacc
  obtain ⟨j, -, hacc⟩ := except_bind_ok.1 hacc.symm
  obtain ⟨i, hi, hacc⟩ := except_bind_ok.1 hacc
  cases hacc
  have hi' : i.rt = T := by
    rw [outcome_any (word_raw ha.word ha.plain) St.init rfl] at hi
    rcases hb : build (env.bindVar (String.ofList x) T .none) env.decCtx (.sym (String.ofList x) false) St.init with ⟨o, s⟩
    rw [hb] at hi
    simp only at hi
    subst hi
    simp only [build, mkSym, M.bind_eq_ok] at hb
    obtain ⟨_, s1, h1, t, s2, h2, hb⟩ := hb
    cases hb
    cases h1
    simp [ctxResolveType, Env.bindVar, Env.alt, scopeLookup, St.init] at h2
    exact h2.1.symm
  simp only [Expr.rt, hi']
  exact .member (.array ..)

/-- **C80.** Selecting twice: `[r for x in ([x for x in a if c]) if d]` gives the same as `[r for x in a if (c) and (d)]`,
value or exception, as soon as `[x for x in a if c]` gives a value. -/
theorem select_twice {v : Value} (ha : Ranges codec env thing p x a T xs) (hc : Clear codec (String.ofList x) c)
    (hd : Clear codec (String.ofList x) d) (hr : Clear codec (String.ofList x) r)
    (hv : ∀ m ∈ xs, ∃ t, fromValue (newValue env m) = .ok t)
    (h0 : Outcome codec env thing p (whereText x x a c) (.ok v))
    (h : Outcome codec env thing p (whereText r x (whereText x x a c) d) y)
    (h' : Outcome codec env thing p (whereText r x a (binText c .AND d)) y') : y = y' := by
  obtain ⟨ys, f, g, rfl, hin, hf, hg, he⟩ := ha.selected hc hv h0
  obtain ⟨d1, r1, hd1, hr1, rfl⟩ := hin.eachIf hd hr h
  obtain ⟨cd, r2, hcd, hr2, rfl⟩ := ha.eachIf (clear_bin (by decide) hc hd) hr h'
  have hsplit : ∀ m, ∃ q, Outcome codec (env.bindVar (String.ofList x) T m) thing p d q := fun m =>
    ((hcd m).parts (by decide) (clear_noGroups hc) (clear_noGroups hd)).2
  rw [eachOn_filter (d := fun m => d1 (newValue env m)) (g := fun m => r1 (newValue env m)) hg he
    (fun m => rfl) (fun m => rfl) env]
  congr 1
  refine eachOn_congr (fun m hm => ?_) fun m hm => (hr1 _).unique (same_for_value hr (hr2 m))
  obtain ⟨q, hq⟩ := hsplit m
  rw [(hf m).operator (k := .AND) (by decide) hq (clear_noGroups hd) (hcd m), (hd1 _).unique (same_for_value hd hq)]
  rfl

/-- **C80.** Running over what is selected: `[r for x in ([x for x in a if c])]` gives the same as `[r for x in a if c]`,
value or exception, as soon as `[x for x in a if c]` gives a value. -/
theorem each_of_selected {v : Value} (ha : Ranges codec env thing p x a T xs) (hc : Clear codec (String.ofList x) c)
    (hr : Clear codec (String.ofList x) r) (hv : ∀ m ∈ xs, ∃ t, fromValue (newValue env m) = .ok t)
    (h0 : Outcome codec env thing p (whereText x x a c) (.ok v))
    (h : Outcome codec env thing p (eachText r x (whereText x x a c)) y)
    (h' : Outcome codec env thing p (whereText r x a c) y') : y = y' := by
  obtain ⟨ys, f, g, rfl, hin, hf, hg, he⟩ := ha.selected hc hv h0
  obtain ⟨r1, hr1, rfl⟩ := hin.each hr h
  obtain ⟨f2, r2, hf2, hr2, rfl⟩ := ha.eachIf hc hr h'
  rw [eachOn_filter (d := fun _ => .ok (.bool true)) (g := fun m => r1 (newValue env m)) hg he
    (fun m => rfl) (fun m => rfl) env]
  congr 1
  obtain ⟨F, G, k1, -, -⟩ := eachOn_ok he
  have : ∀ m ∈ xs, f2 m = .ok (F m) := fun m hm => ((hf2 m).unique (hf m)).trans (k1 m hm)
  have hrr : ∀ m ∈ xs, r1 (newValue env m) = r2 m := fun m hm => (hr1 _).unique (same_for_value hr (hr2 m))
  have heq : eachOn (fun m => BinOp.and.on env (f m) (.ok (.bool true))) (fun m => r1 (newValue env m)) xs =
      eachOn (fun m => .ok (.bool (F m).truthy)) r2 xs := by
    refine eachOn_congr (fun m hm => ?_) hrr
    rw [k1 m hm]
    simp only [BinOp.on, except_ok_bind]
    cases (F m).truthy <;> rfl
  have heq2 : ∀ zs : List Value, (∀ m ∈ zs, f2 m = .ok (F m)) →
      eachOn f2 r2 zs = eachOn (fun m => .ok (.bool (F m).truthy)) r2 zs := by
    intro zs hz
    induction zs with
    | nil => rfl
    | cons m zs ih =>
      simp only [eachOn, hz m (by simp), except_ok_bind, truthy_bool, ih fun m hm => hz m (by simp [hm])]; rfl
  rw [heq, heq2 xs this]

/-- **C80.** A condition splits the members: what `[x for x in a if c]` and `[x for x in a if not (c)]` give, taken together,
are the members of `a`, each as often as in `a`, and in both the order is that of `a`. -/
theorem selected_split {v w : Value} (ha : Ranges codec env thing p x a T xs) (hc : Clear codec (String.ofList x) c)
    (h : Outcome codec env thing p (whereText x x a c) (.ok v))
    (h' : Outcome codec env thing p (whereText x x a (notText c)) (.ok w)) :
    ∃ ys zs, v = .tuple ys ∧ w = .tuple zs ∧ (ys ++ zs).Perm (xs.map (newValue env)) ∧
      ys.Sublist (xs.map (newValue env)) ∧ zs.Sublist (xs.map (newValue env)) := by
  obtain ⟨f, g, hf, hg, e⟩ := ha.eachIf hc ha.clear h
  obtain ⟨f', g', hf', hg', e'⟩ := ha.eachIf (clear_not hc) ha.clear h'
  obtain ⟨ys, he, rfl⟩ := map_tuple e.symm
  obtain ⟨zs, he', rfl⟩ := map_tuple e'.symm
  obtain ⟨F, G, h1, h2, rfl⟩ := eachOn_ok he
  obtain ⟨F', G', k1, k2, rfl⟩ := eachOn_ok he'
  have hF : ∀ m ∈ xs, (F' m).truthy = !(F m).truthy := by
    intro m hm
    have := (hf m).negation (hf' m)
    rw [h1 m hm, k1 m hm] at this
    rw [Except.ok.inj this]
    exact truthy_bool _
  have e1 : (xs.filter fun m => (F m).truthy).map G = (xs.filter fun m => (F m).truthy).map (newValue env) := by
    refine List.map_congr_left fun m hm => ?_
    obtain ⟨hm, hq⟩ := List.mem_filter.1 hm
    exact word_gives ha.word ha.plain (h2 m hm hq ▸ hg m)
  have e2 : (xs.filter fun m => (F' m).truthy).map G' = (xs.filter fun m => !(F m).truthy).map (newValue env) := by
    rw [List.filter_congr hF]
    refine List.map_congr_left fun m hm => ?_
    obtain ⟨hm, hq⟩ := List.mem_filter.1 hm
    exact word_gives ha.word ha.plain (k2 m hm (by rw [hF m hm]; exact hq) ▸ hg' m)
  refine ⟨_, _, rfl, rfl, ?_, ?_, ?_⟩
  · rw [e1, e2, ← List.map_append]
    exact (List.filter_append_perm _ _).map _
  · rw [e1]; exact List.filter_sublist.map _
  · rw [e2]; exact List.filter_sublist.map _

/-- what `(a).is_empty` gives -/
theorem emptiness_of_rule {dct : DecCtx} {l e' : Expr}
    (ha : Part codec env dct a l) (acts' : List TextAct)
    (h' : RE.outcome codec env dct acts' (attrText a "is_empty") = .ok e') (thing : Value) (p : Proc) (v : Value)
    (t : DataType) (xs : List Value) (hv : (p.evaluate env l thing).1 = .ok v) (ht : fromValue v = .ok t)
    (hm : v.members = .ok xs) :
    (p.evaluate env e' thing).1 = .ok (.bool (decide (xs.length = 0))) := by
  obtain ⟨h1, h2, h3, h4⟩ := length_value env hm ht
  rw [attribute_of_rule ha ⟨by decide, by decide⟩ (by decide) acts' h' env.decCtx thing p v t hv ht h2 (fun h => absurd h (by decide)),
    attr_of_resolve _ _ _ _ _ h4]
  cases xs <;> rfl

/-- **C80.** Quantifiers and selections: when `[x for x in a if c]` gives a value, `$any([c for x in a])` gives the same as
`not (([x for x in a if c]).is_empty)`; `c` gives values of the engine. -/
theorem any_is_selected {v : Value} (ha : Ranges codec env thing p x a T xs) (hc : Clear codec (String.ofList x) c)
    (hv : ∀ m ∈ xs, ∃ t, fromValue (newValue env m) = .ok t)
    (hcv : ∀ m ∈ xs, ∀ v, Outcome codec (env.bindVar (String.ofList x) T m) thing p c (.ok v) → ∃ t, fromValue v = .ok t)
    (h0 : Outcome codec env thing p (whereText x x a c) (.ok v))
    (h : Outcome codec env thing p (builtinText "any" [eachText c x a]) y)
    (h' : Outcome codec env thing p (notText (attrText (whereText x x a c) "is_empty")) y') : y = y' := by
  obtain ⟨ys, f, g, rfl, hin, hf, hg, he⟩ := ha.selected hc hv h0
  obtain ⟨F, G, k1, k2, rfl⟩ := eachOn_ok he
  obtain ⟨l, w, t, hl, hT, hw, ht, hi, hm⟩ := ha.over
  obtain ⟨q, rfl, hq⟩ := (quantifiers ha.word hl ha.noGroups hT hw ht hi hm hc (fun m hm => k1 m hm ▸ hf m)
    (fun m hm => hcv m hm _ (k1 m hm ▸ hf m))).1 y h
  have hng : NoGroups codec (attrText (whereText x x a c) "is_empty") :=
    noGroups_attr hin.noGroups ⟨by decide, by decide⟩ (by decide) false
  obtain ⟨e, he', -⟩ := id h'
  obtain ⟨l', hl'⟩ := he'.split_not hng
  obtain ⟨l2, w2, t2, p2, -, hw2, ht2, -, hm2⟩ := hin.over
  obtain ⟨acts, ho⟩ := hl'.outcome
  have hemp := emptiness_of_rule p2 acts ho thing p w2 t2 _ hw2 ht2 hm2
  have hout : Outcome codec env thing p (attrText (whereText x x a c) "is_empty") (p.evaluate env l' thing).1 := ⟨l', hl', rfl⟩
  rw [hout.negation h', hemp]
  simp only [Except.map, truthy_bool]
  congr 2
  rw [Bool.eq_iff_iff, hq]
  simp [List.filter_eq_nil_iff]

/-- **C80.** When `[x for x in a if not (c)]` gives a value, `$all([c for x in a])` gives the same as
`([x for x in a if not (c)]).is_empty`; `c` gives values of the engine. -/
theorem all_is_selected {v : Value} (ha : Ranges codec env thing p x a T xs) (hc : Clear codec (String.ofList x) c)
    (hv : ∀ m ∈ xs, ∃ t, fromValue (newValue env m) = .ok t)
    (hcv : ∀ m ∈ xs, ∀ v, Outcome codec (env.bindVar (String.ofList x) T m) thing p c (.ok v) → ∃ t, fromValue v = .ok t)
    (h0 : Outcome codec env thing p (whereText x x a (notText c)) (.ok v))
    (h : Outcome codec env thing p (builtinText "all" [eachText c x a]) y)
    (h' : Outcome codec env thing p (attrText (whereText x x a (notText c)) "is_empty") y') : y = y' := by
  obtain ⟨ys, f, g, rfl, hin, hf, hg, he⟩ := ha.selected (clear_not hc) hv h0
  obtain ⟨F, G, k1, k2, rfl⟩ := eachOn_ok he
  obtain ⟨l, w, t, hl, hT, hw, ht, hi, hm⟩ := ha.over
  have hgc := noGroups_quantified ha.word ha.noGroups hc
  obtain ⟨r, hr⟩ := h.arg ⟨by decide, by decide⟩ hgc
  obtain ⟨c1, hc1, -⟩ := ha.each hc hr
  have hc2 : ∀ m ∈ xs, ∃ u, c1 m = .ok u ∧ (F m).truthy = !u.truthy := by
    intro m hm
    have := (hc1 m).negation (hf m)
    rw [k1 m hm] at this
    cases hu : c1 m with
    | error e => rw [hu] at this; cases this
    | ok u =>
      rw [hu] at this
      refine ⟨u, rfl, ?_⟩
      rw [Except.ok.inj this]
      exact truthy_bool _
  have hc3 : ∀ m ∈ xs, Outcome codec (env.bindVar (String.ofList x) T m) thing p c
      (.ok (match c1 m with | .ok u => u | .error _ => .none)) := by
    intro m hm
    obtain ⟨u, hu, -⟩ := hc2 m hm
    have := hc1 m
    rw [hu] at this ⊢
    exact this
  obtain ⟨q, rfl, hq⟩ := (quantifiers ha.word hl ha.noGroups hT hw ht hi hm hc hc3
    (fun m hm => hcv m hm _ (hc3 m hm))).2 y h
  obtain ⟨l', hl', rfl⟩ := h'
  obtain ⟨l2, w2, t2, p2, -, hw2, ht2, -, hm2⟩ := hin.over
  obtain ⟨acts, ho⟩ := hl'.outcome
  rw [emptiness_of_rule p2 acts ho thing p w2 t2 _ hw2 ht2 hm2]
  congr 2
  rw [Bool.eq_iff_iff, hq]
  simp only [List.length_map, List.length_eq_zero_iff, List.filter_eq_nil_iff, decide_eq_true_eq]
  refine forall₂_congr fun m hm => ?_
  obtain ⟨u, hu, e⟩ := hc2 m hm
  rw [hu, e]
  simp

/-- **C80.** `(m) in (a)` gives the same as `$any([(x) == (m) for x in a])` when `a` gives an array whose members are of the
type of what `m` gives (for `==`, a value of another type is never equal; for `in`, it may be), and what `m` gives does not
depend on `x`. -/
theorem in_is_any {v : Value} {k : SeqKind} (ha : Ranges codec env thing p x a T xs)
    (hs : Outcome codec env thing p a (.ok (.seq k xs))) {m : List Char} (hm : Outcome codec env thing p m (.ok v))
    (hmx : ∀ u ∈ xs, Outcome codec (env.bindVar (String.ofList x) T u) thing p m (.ok v))
    (hcm : Clear codec (String.ofList x) m) (hset : ∀ u ∈ xs, Settled env u ∧ u.pyType = v.pyType)
    (h : Outcome codec env thing p (inText m a) y)
    (h0 : Outcome codec env thing p (eachText x x a) (.ok z0))
    (h' : Outcome codec env thing p (builtinText "any" [eachText (binText x .EQ m) x a]) y') : y = y' := by
  obtain ⟨hmem, t0, ht0⟩ := ha.values hs
  cases hmem
  obtain ⟨q, rfl, hq⟩ := hm.member hs (clear_noGroups hcm) ht0 rfl (.inr ⟨_, _, rfl⟩) h
  obtain ⟨g, hg, e⟩ := ha.each ha.clear h0
  obtain ⟨ys, he, -⟩ := map_tuple e.symm
  obtain ⟨F, G, k1, k2, -⟩ := eachOn_ok he
  have hgx : ∀ u ∈ xs, g u = .ok u := by
    intro u hu
    have h1 := k2 u hu (by rw [← Except.ok.inj (k1 u hu)]; rfl)
    have h2 := word_gives ha.word ha.plain (h1 ▸ hg u)
    rw [h1, h2, newValue_settled (hset u hu).1]
  obtain ⟨l, w, t, hl, hT, hw, ht, hi, hmm⟩ := ha.over
  have hcb := clear_bin (k := .EQ) (by decide) ha.clear hcm
  obtain ⟨r, hr⟩ := h'.arg ⟨by decide, by decide⟩ (noGroups_quantified ha.word ha.noGroups hcb)
  obtain ⟨b, hb, -⟩ := ha.each hcb hr
  have hbv : ∀ u ∈ xs, Outcome codec (env.bindVar (String.ofList x) T u) thing p (binText x .EQ m)
      (.ok (.bool (pyEq env.utcoffset u v))) := by
    intro u hu
    have := Outcome.values (k := .EQ) (by decide) (hgx u hu ▸ hg u) (hmx u hu) (clear_noGroups hcm) (hb u)
    rw [meaning, binResult_eq] at this
    have h3 : b u = .ok (.bool (pyEq env.utcoffset u v)) := by
      rw [this, opEq, if_pos (hset u hu).2]
      rfl
    exact h3 ▸ hb u
  obtain ⟨q', rfl, hq'⟩ := (quantifiers ha.word hl ha.noGroups hT hw ht hi hmm hcb hbv (fun _ _ => ⟨_, rfl⟩)).1 y' h'
  have : q = q' := by
    rw [Bool.eq_iff_iff, hq, hq']
    simp only [truthy_bool]
  rw [this]

end

/-! ### Cases that meet the hypotheses, and one that does not -/

/-- `z` is the array of two texts, `y` the second of them, `n` a number -/
def eachThing : Value := dictOf [("y", .str "b"), ("z", .tuple [.str "a", .str "b"]), ("n", .dec (.ofInt 1)), ("t", .bool true),
  ("w", .tuple [.dec (.ofInt 1)])]

/-- The hypotheses of the laws are met, for the members `m` of `z`, the condition `(m) == (y)` and a second condition
`(m) >= (y)`: all the rules are accepted and give these values. -/
theorem each_laws_witness (codec : LitCodec) :
    let Out := Outcome codec sampleEnv eachThing Proc.new
    let m := ['m']; let z := ['z']; let y := ['y']
    let c := binText m .EQ y; let d := binText m .GE y
    (Ranges codec sampleEnv eachThing Proc.new m z .undefined [.str "a", .str "b"] ∧ Clear codec (String.ofList m) c ∧
      Clear codec (String.ofList m) d ∧ Clear codec (String.ofList m) y ∧
      (∀ u ∈ [Value.str "a", .str "b"], (∃ t, fromValue (newValue sampleEnv u) = .ok t) ∧ Settled sampleEnv u ∧
        u.pyType = (Value.str "b").pyType) ∧ (∀ u ∈ [Value.str "a", .str "b"], Outcome codec (sampleEnv.bindVar (String.ofList m) .undefined u) eachThing
        Proc.new y (.ok (.str "b")))) ∧
    (Out (eachText m m z) (.ok (.tuple [.str "a", .str "b"])) ∧ Out (eachText d m z) (.ok (.tuple [.bool false, .bool true])) ∧
      Out (attrText (eachText d m z) "length") (.ok (.dec (.ofInt 2))) ∧ Out (attrText z "is_empty") (.ok (.bool false))) ∧
    (Out (whereText m m z d) (.ok (.tuple [.str "b"])) ∧ Out (whereText m m z (notText d)) (.ok (.tuple [.str "a"])) ∧
      Out (whereText c m (whereText m m z d) c) (.ok (.tuple [.bool true])) ∧
      Out (whereText c m z (binText d .AND c)) (.ok (.tuple [.bool true])) ∧
      Out (eachText c m (whereText m m z d)) (.ok (.tuple [.bool true]))) ∧
    (Out (builtinText "any" [eachText c m z]) (.ok (.bool true)) ∧
      Out (notText (attrText (whereText m m z c) "is_empty")) (.ok (.bool true)) ∧
      Out (builtinText "all" [eachText c m z]) (.ok (.bool false)) ∧
      Out (attrText (whereText m m z (notText c)) "is_empty") (.ok (.bool false)) ∧ Out (inText y z) (.ok (.bool true))) := by
  intro Out m z y c d
  have hm : Means codec ['m'] (.sym "m" false) := means_sym ⟨by decide, by decide⟩
  have hy : Means codec ['y'] (.sym "y" false) := means_sym ⟨by decide, by decide⟩
  have hz : Means codec ['z'] (.sym "z" false) := means_sym ⟨by decide, by decide⟩
  have hc := means_bin hm hy .EQ (by decide)
  have hd := means_bin hm hy .GE (by decide)
  have hw : IsWord ['m'] := ⟨by decide, by decide⟩
  have call : ∀ {name : String} {t : List Char} {r : Raw}, IsWord ('$' :: name.toList) → Means codec t r →
      Means codec (builtinText name [t]) (.call (symRaw ('$' :: name.toList)) [r]) :=
    fun hw h => means_call (means_sym hw) (.cons h .nil)
  have out : ∀ {env : Env} {t : List Char} {r : Raw} {e : Expr} {v : Value}, Means codec t r →
      (construct env env.decCtx r St.init).1 = .ok e → (Proc.new.evaluate env e eachThing).1 = .ok v →
      Outcome codec env eachThing Proc.new t (.ok v) :=
    fun hm hb hv => ⟨_, ⟨⟨_, hm⟩, [], (rule_of_means hm).trans hb⟩, hv⟩
  have att : ∀ {t : List Char} {r : Raw} (n : String), IsWord n.toList → n.toList.head? ≠ some '$' → Means codec t r →
      Means codec (attrText t n) (.getAttr r (String.ofList n.toList) false) := fun n h1 h2 h => means_attr h h1 h2 false
  refine ⟨⟨⟨hw, by decide, ⟨_, hz, by simp [Raw.uses]⟩, _, .tuple [.str "a", .str "b"], _, ⟨⟨_, hz⟩, [], (rule_of_means hz).trans rfl⟩, .unknown,
    by decide +kernel, rfl, rfl, rfl⟩, ⟨_, hc, ⟨trivial, trivial⟩, by decide, by simp [Raw.uses, meaning]⟩,
    ⟨_, hd, ⟨trivial, trivial⟩, by decide, by simp [Raw.uses, meaning]⟩, ⟨_, hy, trivial, by decide, by simp [Raw.uses]⟩,
    ?_, ?_⟩, ⟨?_, ?_, ?_, ?_⟩, ⟨?_, ?_, ?_, ?_, ?_⟩, ⟨?_, ?_, ?_, ?_, ?_⟩⟩
  · intro u hu
    simp only [List.mem_cons, List.not_mem_nil, or_false] at hu
    rcases hu with rfl | rfl <;> exact ⟨⟨_, rfl⟩, ⟨rfl, rfl⟩, rfl⟩
  · intro u hu
    simp only [List.mem_cons, List.not_mem_nil, or_false] at hu
    rcases hu with rfl | rfl <;> exact out hy rfl (by decide +kernel)
  · exact out (means_comp hm hz hw) rfl (by decide +kernel)
  · exact out (means_comp hd hz hw) rfl (by decide +kernel)
  · exact out (att "length" (by exact ⟨by decide, by decide⟩) (by decide) (means_comp hd hz hw)) rfl (by decide +kernel)
  · exact out (att "is_empty" (by exact ⟨by decide, by decide⟩) (by decide) hz) rfl (by decide +kernel)
  · exact out (means_comp_if hm hz hd hw) rfl (by decide +kernel)
  · exact out (means_comp_if hm hz (means_not hd) hw) rfl (by decide +kernel)
  · exact out (means_comp_if hc (means_comp_if hm hz hd hw) hc hw) rfl (by decide +kernel)
  · exact out (means_comp_if hc hz (means_bin hd hc .AND (by decide)) hw) rfl (by decide +kernel)
  · exact out (means_comp hc (means_comp_if hm hz hd hw) hw) rfl (by decide +kernel)
  · exact out (call (by exact ⟨by decide, by decide⟩) (means_comp hc hz hw)) rfl (by decide +kernel)
  · exact out (means_not (att "is_empty" (by exact ⟨by decide, by decide⟩) (by decide) (means_comp_if hm hz hc hw))) rfl (by decide +kernel)
  · exact out (call (by exact ⟨by decide, by decide⟩) (means_comp hc hz hw)) rfl (by decide +kernel)
  · exact out (att "is_empty" (by exact ⟨by decide, by decide⟩) (by decide) (means_comp_if hm hz (means_not hc) hw)) rfl (by decide +kernel)
  · exact out (means_in hy hz) rfl (by decide +kernel)

/-- **C80.** That the members have the type of `m` cannot be left out: `(t) in (w)`, for the truth value true and the array of
the number 1, is true, but `$any([(m) == (t) for m in w])` is false. -/
theorem in_is_not_any (codec : LitCodec) :
    Outcome codec sampleEnv eachThing Proc.new (inText ['t'] ['w']) (.ok (.bool true)) ∧
    Outcome codec sampleEnv eachThing Proc.new (builtinText "any" [eachText (binText ['m'] .EQ ['t']) ['m'] ['w']])
      (.ok (.bool false)) := by
  have hm : Means codec ['m'] (.sym "m" false) := means_sym ⟨by decide, by decide⟩
  have ht : Means codec ['t'] (.sym "t" false) := means_sym ⟨by decide, by decide⟩
  have hw : Means codec ['w'] (.sym "w" false) := means_sym ⟨by decide, by decide⟩
  have out : ∀ {t : List Char} {r : Raw} {e : Expr} {v : Value}, Means codec t r →
      (construct sampleEnv sampleEnv.decCtx r St.init).1 = .ok e → (Proc.new.evaluate sampleEnv e eachThing).1 = .ok v →
      Outcome codec sampleEnv eachThing Proc.new t (.ok v) :=
    fun hm hb hv => ⟨_, ⟨⟨_, hm⟩, [], (rule_of_means hm).trans hb⟩, hv⟩
  refine ⟨?_, ?_⟩
  · exact out (means_in ht hw) rfl (by decide +kernel)
  · refine out (means_call (means_sym (by exact ⟨by decide, by decide⟩)) (.cons (means_comp (means_bin hm ht .EQ (by decide)) hw
      ⟨by decide, by decide⟩) .nil)) rfl (by decide +kernel)

end RE
