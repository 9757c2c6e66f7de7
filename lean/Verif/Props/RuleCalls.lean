import Verif.Props.RuleParts
import Verif.Props.ComposeMore

/-!
# Calls, attributes and sets from the values of their parts (C68)
-/

set_option linter.unusedSimpArgs false
set_option linter.unusedVariables false

namespace RE

/-- **Specification.** A call, from what the function and the arguments give; `ft` is the declared type of the function. -/
def callOn (env : Env) (ft : DataType) (x : Except Err Value) (ys : List (Except Err Value)) : Except Err Value := do
  let f ← x
  if f.isCallable then do
    let vs ← arrayOn ys
    (evalCall env env.decCtx ft (callNodeType ft) f vs St.init).1
  else .error .mismatch

/-- **Specification.** The members of a set literal, from what they give: they are added one after the other. -/
def setOn (off : TzDb) : List Value → List (Except Err Value) → Except Err (List Value)
  | acc, [] => .ok acc
  | acc, x :: xs => do
    let v ← x
    if v.hashable then setOn off (setAdd off acc v) xs else .error .typeError

/-- **Specification.** `x.n`, `x&.n`: an attribute of the value's type, else what the resolver has for the value. -/
def attrOn (env : Env) (n : String) (safe : Bool) (x : Except Err Value) : Except Err Value := do
  let o ← x
  if o = .none ∧ safe = true then .ok .none
  else
    match resolveAttr env o n with
    | .ok v => .ok (newValue env v)
    | .error err =>
      if isAttrErr err then
        match env.resolver o n with
        | .ok v => .ok (newValue env v)
        | .error err' =>
          if isSymErr err' then
            match env.defaultValue with
            | some d => .ok (newValue env d)
            | none => .error err
          else .error err'
      else .error err

theorem evalCall_out (env : Env) (ft rt : DataType) (f : Value) (vs : List Value) (s s2 : St) :
    (evalCall env env.decCtx ft rt f vs s).1 = (evalCall env env.decCtx ft rt f vs s2).1 :=
  evalCall_rel outcome_base env env.resolver env.typeResolver env.defaultValue env.decCtx ft rt f vs s s2

theorem call_out {env : Env} {f : Expr} {es : List Expr} {thing : Value} {s : St}
    (h : ∀ e ∈ es, Steady (eval env env.decCtx thing e) s) :
    (eval env env.decCtx thing (.call f es) s).1 =
      callOn env f.rt (eval env env.decCtx thing f s).1 (es.map fun e => (eval env env.decCtx thing e s).1) := by
  simp only [eval]
  refine bind_out fun a s' ha => ?_
  rw [M.ite_app]
  split
  · have h1 : ∀ e ∈ es, Steady (eval env env.decCtx thing e) s' := fun x hx => (h x hx).step ha
    have h2 : (es.map fun e => (eval env env.decCtx thing e s).1) = es.map fun e => (eval env env.decCtx thing e s').1 :=
      List.map_congr_left fun x hx => ((h x hx).after ha).symm
    rw [h2, ← array_out h1]
    exact bind_out fun vs t _ => evalCall_out env _ _ _ _ _ _
  · rfl

theorem set_out {env : Env} {thing : Value} : ∀ {es : List Expr} {acc : List Value} {s : St},
    (∀ e ∈ es, Steady (eval env env.decCtx thing e) s) →
    (setM env.utcoffset acc (evals env env.decCtx thing es) s).1 =
      setOn env.utcoffset acc (es.map fun e => (eval env env.decCtx thing e s).1)
  | [], acc, s, _ => rfl
  | e :: es, acc, s, h => by
    simp only [evals, setM, List.map_cons, setOn]
    refine bind_out fun a s' ha => ?_
    rw [M.ite_app]
    split
    · have h1 : ∀ e ∈ es, Steady (eval env env.decCtx thing e) s' := fun x hx => (h x (List.mem_cons_of_mem _ hx)).step ha
      have h2 : (es.map fun e => (eval env env.decCtx thing e s).1) = es.map fun e => (eval env env.decCtx thing e s').1 :=
        List.map_congr_left fun x hx => ((h x (List.mem_cons_of_mem _ hx)).after ha).symm
      rw [h2, ← set_out h1]
    · rfl

theorem steady_parts {codec : LitCodec} {env : Env} {dct : DecCtx} {ts : List (List Char)} {es : List Expr}
    (hp : List.Forall₂ (Part codec env dct) ts es) (hg : ∀ t ∈ ts, NoGroups codec t) (thing : Value) (s : St) :
    ∀ e ∈ es, Steady (eval env env.decCtx thing e) s := by
  induction hp with
  | nil => simp
  | cons h hs ih =>
    intro e he
    rcases List.mem_cons.1 he with rfl | he
    · exact steady_part h (hg _ (by simp)) _ _ _
    · exact ih (fun t ht => hg t (List.mem_cons_of_mem _ ht)) e he

/-- **C68.** `{a, b, …}` is the set of what the rules `a`, `b`, … give, or the first of their exceptions. -/
theorem set_of_rules {codec : LitCodec} {env : Env} {dct : DecCtx} {ts : List (List Char)} {es : List Expr} {e : Expr}
    (hp : List.Forall₂ (Part codec env dct) ts es) (hne : ts ≠ []) (hg : ∀ t ∈ ts, NoGroups codec t) (acts : List TextAct)
    (h : outcome codec env dct acts ('{' :: (commas ts ++ ['}'])) = .ok e) (thing : Value) (p : Proc) :
    (p.evaluate env e thing).1 = (setOn env.utcoffset [] (es.map fun e => (p.evaluate env e thing).1)).map .set := by
  obtain ⟨rs, hms, hbs⟩ := parts_build hp
  obtain ⟨s, hs, ho⟩ := outcome_of (env := env) (dct := dct) (acts := acts) (means_set hms hne)
  obtain ⟨s1, h1, hs1⟩ := hbs s hs
  rw [ho] at h
  simp only [RE.build] at h
  rw [bind_ok' h1] at h
  cases h
  simp only [Proc.evaluate, ruleEval, eval]
  rw [← set_out (steady_parts hp hg thing _), M.bind_apply]
  rcases setM env.utcoffset [] (evals env env.decCtx thing es) p.st.reset with ⟨x | x, s3⟩ <;> rfl

theorem callMethod_literal {env : Env} {m : Method} {self v : Value} {args : List Value} {off : TzDb}
    (h : callMethod env m self args = .ok v) : v.Literal off := by
  unfold callMethod at h
  split at h
  · simp only at h
    split at h
    · cases h; trivial
    · split at h
      · cases h; trivial
      · split at h <;> cases h; trivial
  · simp only at h
    split at h
    · split at h
      · cases h; trivial
      · cases h
    · split at h
      · split at h
        · cases h; trivial
        · cases h
      · split at h <;> cases h; trivial
  · simp only [except_bind_ok] at h
    obtain ⟨_, _, _, _, h⟩ := h
    cases h; trivial
  · simp only [except_bind_ok] at h
    obtain ⟨_, _, _, _, h⟩ := h
    cases h; trivial
  · cases h

theorem method_call_literal {env : Env} {dc : DecCtx} {ft rt : DataType} {m : Method} {self v : Value} {args : List Value}
    {s s' : St} {off : TzDb} (h : evalCall env dc ft rt (.method m self) args s = (.ok v, s')) : v.Literal off := by
  obtain ⟨r, s1, h1, rfl⟩ := evalCall_ok h
  simp only [callFn, callLogged, Prod.mk.injEq] at h1
  have hr : r.Literal env.utcoffset := callMethod_literal (off := env.utcoffset) (by simpa only [callBasic] using h1.1)
  have hr' : r.Literal off := callMethod_literal (off := off) (by simpa only [callBasic] using h1.1)
  rw [coerce_literal r hr]
  cases r <;> simp only [localise] <;> first | exact hr' | skip
  rename_i us tz
  cases tz <;> trivial

theorem allNamesList_of {P : String → DataType → Bool → Prop} {Q : String → Prop} {es : List Expr}
    (h : ∀ e ∈ es, e.allNames P Q) : Expr.allNamesList P Q es := by
  induction es with
  | nil => trivial
  | cons a t ih => exact ⟨h a (by simp), ih fun e he => h e (List.mem_cons_of_mem _ he)⟩

/-- **C68.** `(f)(a, b, …)` from what the rules `f`, `a`, `b`, … give; when all of them are constants, `f` has to be a
method (no other constant is callable). -/
theorem call_of_rules {codec : LitCodec} {env : Env} {f : List Char} {l : Expr} {ts : List (List Char)} {es : List Expr}
    {e : Expr} (hf : Part codec env env.decCtx f l) (hp : List.Forall₂ (Part codec env env.decCtx) ts es)
    (hg : ∀ t ∈ ts, NoGroups codec t) (acts : List TextAct)
    (h : outcome codec env env.decCtx acts (par f ++ par (commas ts)) = .ok e) (thing : Value) (p : Proc)
    (hc : l.reduced = true → Expr.reducedList es = true → ∃ m self, (p.evaluate env l thing).1 = .ok (.method m self)) :
    (p.evaluate env e thing).1 =
      callOn env l.rt (p.evaluate env l thing).1 (es.map fun e => (p.evaluate env e thing).1) := by
  obtain ⟨rf, hmf, hbf⟩ := hf.build
  obtain ⟨rs, hms, hbs⟩ := parts_build hp
  obtain ⟨s, hs, ho⟩ := outcome_of (env := env) (dct := env.decCtx) (acts := acts) (means_call hmf hms)
  obtain ⟨s1, h1, hs1⟩ := hbf s hs
  obtain ⟨s2, h2, hs2⟩ := hbs s1 hs1
  rw [ho] at h
  simp only [RE.build] at h
  rw [bind_ok' h1, bind_ok' h2] at h
  simp only [Proc.evaluate, ruleEval] at hc ⊢
  rw [← call_out (steady_parts hp hg thing _)]
  unfold mkCall at h
  have h0 : ((if l.reduced && Expr.reducedList es then foldLit env env.decCtx (.call l es) else pure (.call l es)) s2).1 =
      .ok e := by
    split at h
    · exact h
    · rcases hv : validateCall l.rt (Expr.rts es) with err | u
      · rw [hv] at h; cases h
      · rw [hv, lift_ok_bind] at h; exact h
  rw [M.ite_app] at h0
  by_cases hr : (l.reduced && Expr.reducedList es) = true
  · rw [if_pos hr] at h0
    rcases hfl : foldLit env env.decCtx (.call l es) s2 with ⟨x, s3⟩
    rw [hfl] at h0
    simp only at h0
    subst h0
    rw [Bool.and_eq_true] at hr
    refine foldLit_out hfl ?_ ?_ _ _ _ _ _
    · exact (show (Expr.call l es).allNames _ _ from by
        simp only [Expr.allNames]
        exact ⟨reduced_noNames hr.1, allNamesList_of fun e he => reduced_noNames (reducedList_mem hr.2 e he)⟩)
    · intro s v s' hv
      obtain ⟨m, self, hm⟩ := hc hr.1 hr.2
      simp only [eval] at hv
      rw [M.bind_eq_ok] at hv
      obtain ⟨g, s4, h4, hv⟩ := hv
      have hg' : (.ok g : Except Err Value) = .ok (.method m self) := by
        rw [← hm, noNames_out (reduced_noNames hr.1) env.decCtx thing .none p.st.reset s, h4]
      cases hg'
      rw [M.ite_app] at hv
      split at hv
      · rw [M.bind_eq_ok] at hv
        obtain ⟨vs, s5, h5, hv⟩ := hv
        exact method_call_literal hv
      · cases hv
  · rw [if_neg hr] at h0
    cases h0
    rfl

theorem evalGetAttr_out {env : Env} {o : Value} {n : String} {s : St} (hs : s.scopes = []) :
    (evalGetAttr env o n s).1 = (do
      match resolveAttr env o n with
      | .ok v => .ok (newValue env v)
      | .error err =>
        if isAttrErr err then
          match env.resolver o n with
          | .ok v => .ok (newValue env v)
          | .error err' =>
            if isSymErr err' then
              match env.defaultValue with
              | some d => .ok (newValue env d)
              | none => .error err
            else .error err'
        else .error err) := by
  have hc : ctxResolve env o n false s = (env.resolver o n, { s with log := s.log ++ [.resolve o n] }) := by
    unfold ctxResolve
    rw [hs]
    rfl
  unfold evalGetAttr
  rw [hc]
  rcases resolveAttr env o n with err | v
  · simp only
    split
    · rcases env.resolver o n with err' | v
      · simp only
        split
        · rcases env.defaultValue <;> rfl
        · rfl
      · rfl
    · rfl
  · rfl

/-- **C68.** `(a).n` and `(a)&.n` from what the rule `a` gives, when `a` is not a constant: an attribute of the value's
type, and if the type has none the resolver is asked for `n` of that value. -/
theorem attr_of_rule {codec : LitCodec} {env : Env} {dct : DecCtx} {a n : List Char} {l e : Expr}
    (ha : Part codec env dct a l) (hn : IsWord n) (hd : n.head? ≠ some '$') (safe : Bool) (hr : l.reduced = false)
    (acts : List TextAct)
    (h : outcome codec env dct acts (par a ++ ((if safe then "&." else ".").toList ++ n)) = .ok e) (thing : Value)
    (p : Proc) :
    (p.evaluate env e thing).1 = attrOn env (String.ofList n) safe (p.evaluate env l thing).1 := by
  obtain ⟨ra, hma, hba⟩ := ha.build
  obtain ⟨s, hs, ho⟩ := outcome_of (env := env) (dct := dct) (acts := acts) (means_attr hma hn hd safe)
  obtain ⟨s1, h1, hs1⟩ := hba s hs
  rw [ho] at h
  simp only [RE.build] at h
  rw [bind_ok' h1] at h
  simp only [Proc.evaluate, ruleEval]
  unfold mkGetAttr at h
  rcases hc : checkAttr l.rt (String.ofList n) safe with err | u
  · rw [hc] at h; cases h
  rw [hc, lift_ok_bind] at h
  simp only [hr, Bool.false_eq_true, if_false] at h
  cases h
  simp only [eval]
  refine bind_out fun o s' hev => ?_
  rw [M.ite_app]
  split
  · rfl
  · refine evalGetAttr_out ?_
    have := eval_scopes env env.decCtx thing l p.st.reset
    rw [hev] at this
    exact this

/-! ### Mappings and half-open slices -/

/-- **Specification.** The keys of a mapping literal, in order: a later entry with an equal key takes the place of the
earlier value; a key that is a set or a mapping, or that cannot be hashed, is an error. -/
def mapKeysOn (off : TzDb) : List (Value × Except Err Value) → List (Except Err Value × Except Err Value) →
    Except Err (List (Value × Except Err Value))
  | acc, [] => .ok acc
  | acc, (x, y) :: rest => do
    let k ← x
    let t ← fromValue k
    if t.isCompound && !t.isArray then .error (.eng .engine)
    else if k.hashable then mapKeysOn off (mapInsert off acc k y) rest
    else .error .typeError

/-- **Specification.** The values that are left, in order. -/
def mapValsOn : List (Value × Except Err Value) → Except Err (List (Value × Value))
  | [] => .ok []
  | (k, y) :: rest => do
    let v ← y
    let vs ← mapValsOn rest
    .ok ((k, v) :: vs)

/-- **Specification.** `{x: y, …}`: all keys first, then the values. -/
def mappingOn (off : TzDb) (ps : List (Except Err Value × Except Err Value)) : Except Err Value := do
  let ks ← mapKeysOn off [] ps
  let kvs ← mapValsOn ks
  .ok (.map .ordered kvs)

/-- from all states with the variables of `s`, the same outcome, and the variables stay -/
structure Calm (m : M Value) (s : St) : Prop where
  out : ∀ s' : St, s'.scopes = s.scopes → (m s').1 = (m s).1
  keeps : ∀ s' : St, (m s').2.scopes = s'.scopes

theorem vals_out {s : St} : ∀ {acc : List (Value × M Value)} {t : St}, t.scopes = s.scopes → (∀ p ∈ acc, Calm p.2 s) →
    (mapValsM acc t).1 = mapValsOn (acc.map fun p => (p.1, (p.2 s).1))
  | [], t, _, _ => rfl
  | (k, m) :: rest, t, ht, h => by
    have hm : Calm m s := h (k, m) (by simp)
    simp only [mapValsM, List.map_cons, mapValsOn]
    rw [← hm.out t ht]
    refine bind_out fun v t' hv => ?_
    have ht' : t'.scopes = s.scopes := by
      have := hm.keeps t
      rw [hv] at this
      exact this.trans ht
    rw [← vals_out ht' fun p hp => h p (List.mem_cons_of_mem _ hp)]
    exact bind_out fun vs t _ => rfl

theorem insert_calm {off : TzDb} {s : St} {k : Value} {m : M Value} (hm : Calm m s) :
    ∀ {acc : List (Value × M Value)}, (∀ p ∈ acc, Calm p.2 s) → ∀ p ∈ mapInsert off acc k m, Calm p.2 s
  | [], _, p, hp => by
    simp only [mapInsert, List.mem_singleton] at hp
    rw [hp]; exact hm
  | (k', m') :: acc, h, p, hp => by
    simp only [mapInsert] at hp
    split at hp
    · rcases List.mem_cons.1 hp with rfl | hp
      · exact hm
      · exact h p (List.mem_cons_of_mem _ hp)
    · rcases List.mem_cons.1 hp with rfl | hp
      · exact h (k', m') (by simp)
      · exact insert_calm hm (fun q hq => h q (List.mem_cons_of_mem _ hq)) p hp

theorem keys_out {off : TzDb} {s : St} : ∀ {ps : List (M Value × M Value)} {acc : List (Value × M Value)} {t : St},
    t.scopes = s.scopes → (∀ p ∈ acc, Calm p.2 s) → (∀ p ∈ ps, Calm p.1 s ∧ Calm p.2 s) →
    ((mapKeysM off acc ps >>= mapValsM) t).1 =
      (mapKeysOn off (acc.map fun p => (p.1, (p.2 s).1)) (ps.map fun p => ((p.1 s).1, (p.2 s).1)) >>= mapValsOn)
  | [], acc, t, ht, ha, _ => by
    simp only [mapKeysM, List.map_nil, mapKeysOn]
    exact vals_out ht ha
  | (k, v) :: rest, acc, t, ht, ha, h => by
    obtain ⟨hk, hv⟩ : Calm k s ∧ Calm v s := h (k, v) (by simp)
    simp only [mapKeysM, List.map_cons, mapKeysOn, bind_assoc]
    rw [← hk.out t ht]
    refine bind_out fun key t' hkey => lift_bind_out fun kt _ => ?_
    have ht' : t'.scopes = s.scopes := by
      have := hk.keeps t
      rw [hkey] at this
      exact this.trans ht
    by_cases hc : (kt.isCompound && !kt.isArray) = true
    · rw [if_pos hc, if_pos hc]; rfl
    · rw [if_neg hc, if_neg hc]
      by_cases hh : key.hashable = true
      · rw [if_pos hh, if_pos hh,
          keys_out ht' (insert_calm hv ha) fun p hp => h p (List.mem_cons_of_mem _ hp),
          mapInsert_map off (fun m : M Value => (m s).1) acc key v]
      · rw [if_neg hh, if_neg hh]; rfl

/-- the keys and values as rules of their own -/
abbrev PartPair (codec : LitCodec) (env : Env) (dct : DecCtx) (t : List Char × List Char) (e : Expr × Expr) : Prop :=
  Part codec env dct t.1 e.1 ∧ Part codec env dct t.2 e.2

theorem pairs_build {codec : LitCodec} {env : Env} {dct : DecCtx} : ∀ {ts : List (List Char × List Char)}
    {es : List (Expr × Expr)}, List.Forall₂ (PartPair codec env dct) ts es →
    ∃ rs, List.Forall₂ (fun (t : List Char × List Char) (r : Raw × Raw) => Means codec t.1 r.1 ∧ Means codec t.2 r.2) ts rs ∧
      ∀ s, s.scopes = [] → ∃ s', buildPairs env dct rs s = (.ok es, s') ∧ s'.scopes = []
  | _, _, .nil => ⟨[], .nil, fun s hs => ⟨s, rfl, hs⟩⟩
  | _, _, .cons h hs => by
    obtain ⟨rk, hk, hbk⟩ := h.1.build
    obtain ⟨rv, hv, hbv⟩ := h.2.build
    obtain ⟨rs, hrs, hbs⟩ := pairs_build hs
    refine ⟨(rk, rv) :: rs, .cons ⟨hk, hv⟩ hrs, fun s h0 => ?_⟩
    obtain ⟨s1, h1, h2⟩ := hbk s h0
    obtain ⟨s2, h3, h4⟩ := hbv s1 h2
    obtain ⟨s3, h5, h6⟩ := hbs s2 h4
    refine ⟨s3, ?_, h6⟩
    simp only [buildPairs]
    rw [bind_ok' h1, bind_ok' h3, bind_ok' h5]
    rfl

theorem calm_part {codec : LitCodec} {env : Env} {dct : DecCtx} {t : List Char} {e : Expr}
    (ht : Part codec env dct t e) (hg : NoGroups codec t) (dc : DecCtx) (thing : Value) (s : St) :
    Calm (eval env dc thing e) s :=
  ⟨fun s' h => (noGroups_sameOut ht hg dc thing).out s' s h, fun s' => eval_scopes env dc thing e s'⟩

/-- **C68.** `{k: v, …}` from what the rules `k`, `v`, … give: all keys are evaluated first, and of entries with equal
keys only the value of the last is. -/
theorem mapping_of_rules {codec : LitCodec} {env : Env} {dct : DecCtx} {ts : List (List Char × List Char)}
    {es : List (Expr × Expr)} {e : Expr} (hp : List.Forall₂ (PartPair codec env dct) ts es)
    (hg : ∀ t ∈ ts, NoGroups codec t.1 ∧ NoGroups codec t.2) (acts : List TextAct)
    (h : outcome codec env dct acts ('{' :: (commas (ts.map entry) ++ ['}'])) = .ok e) (thing : Value) (p : Proc) :
    (p.evaluate env e thing).1 =
      mappingOn env.utcoffset (es.map fun e => ((p.evaluate env e.1 thing).1, (p.evaluate env e.2 thing).1)) := by
  obtain ⟨rs, hms, hbs⟩ := pairs_build hp
  obtain ⟨s, hs, ho⟩ := outcome_of (env := env) (dct := dct) (acts := acts) (means_mapping hms)
  obtain ⟨s1, h1, hs1⟩ := hbs s hs
  rw [ho] at h
  simp only [RE.build] at h
  rw [bind_ok' h1] at h
  have he : mkMapping es = .ok e := h
  simp only [mkMapping, except_bind_ok] at he
  obtain ⟨_, hty, he⟩ := he
  cases he
  clear hty
  have hcalm : ∀ q ∈ evalPairs env env.decCtx thing es, Calm q.1 p.st.reset ∧ Calm q.2 p.st.reset := by
    clear ho h1 hbs hms hs hs1 h
    induction hp with
    | nil => simp [evalPairs]
    | @cons t e ts es h hs ih =>
      obtain ⟨k, v⟩ := e
      intro q hq
      simp only [evalPairs, List.mem_cons] at hq
      rcases hq with rfl | hq
      · exact ⟨calm_part h.1 (hg _ (by simp)).1 _ _ _, calm_part h.2 (hg _ (by simp)).2 _ _ _⟩
      · exact ih (fun t ht => hg t (List.mem_cons_of_mem _ ht)) q hq
  have hmap : (es.map fun e => ((eval env env.decCtx thing e.1 p.st.reset).1, (eval env env.decCtx thing e.2 p.st.reset).1)) =
      (evalPairs env env.decCtx thing es).map fun q => ((q.1 p.st.reset).1, (q.2 p.st.reset).1) := by
    clear ho h1 hbs hms hs hs1 h hcalm hp
    induction es with
    | nil => rfl
    | cons e es ih => obtain ⟨k, v⟩ := e; simp only [List.map_cons, evalPairs, ih]
  simp only [Proc.evaluate, ruleEval, eval]
  rw [hmap, mappingOn, ← bind_assoc, ← bind_assoc]
  have hk := keys_out (off := env.utcoffset) (s := p.st.reset) (t := p.st.reset) (acc := []) rfl (by simp) hcalm
  rw [List.map_nil] at hk
  rw [← hk]
  exact bind_out fun _ _ _ => rfl

/-- a slice with bounds that may be left out -/
theorem slice_core {codec : LitCodec} {env : Env} {a t : List Char} {ra ri rj : Raw} {l i j e : Expr} {safe : Bool}
    (ha : Part codec env env.decCtx a l) (hma : Means codec a ra) (hm : Means codec t (.getSlice ra ri rj safe))
    (hi : ∀ s, s.scopes = [] → ∃ s', build env env.decCtx ri s = (.ok i, s') ∧ s'.scopes = [])
    (hj : ∀ s, s.scopes = [] → ∃ s', build env env.decCtx rj s = (.ok j, s') ∧ s'.scopes = [])
    (hsi : ∀ thing s, Steady (eval env env.decCtx thing i) s) (hsj : ∀ thing s, Steady (eval env env.decCtx thing j) s)
    (acts : List TextAct) (h : outcome codec env env.decCtx acts t = .ok e) (thing : Value) (p : Proc) :
    (p.evaluate env e thing).1 =
      sliceOn env safe (p.evaluate env l thing).1 (p.evaluate env i thing).1 (p.evaluate env j thing).1 := by
  obtain ⟨ra', hma', hba⟩ := ha.build
  cases means_unique hma hma'
  obtain ⟨s, hs, ho⟩ := outcome_of (env := env) (dct := env.decCtx) (acts := acts) hm
  obtain ⟨s1, h1, hs1⟩ := hi s hs
  obtain ⟨s2, h2, hs2⟩ := hj s1 hs1
  obtain ⟨s3, h3, hs3⟩ := hba s2 hs2
  rw [ho] at h
  simp only [RE.build] at h
  rw [bind_ok' h1, bind_ok' h2, bind_ok' h3] at h
  simp only [Proc.evaluate, ruleEval]
  rw [← slice_out (hsi thing _) (hsj thing _)]
  unfold mkGetSlice at h
  rcases hch : checkSlice l.rt safe with err | u
  · rw [hch] at h; cases h
  rw [hch, lift_ok_bind, M.ite_app] at h
  by_cases hr : (l.reduced && i.reduced && j.reduced) = true
  · rw [if_pos hr] at h
    rcases hf : foldLit env env.decCtx (.getSlice l i j safe) s3 with ⟨x, s4⟩
    rw [hf] at h
    simp only at h
    subst h
    simp only [Bool.and_eq_true] at hr
    refine foldLit_out hf ?_ ?_ _ _ _ _ _
    · exact (show (Expr.getSlice l i j safe).allNames _ _ from by
        simp only [Expr.allNames]; exact ⟨reduced_noNames hr.1.1, reduced_noNames hr.1.2, reduced_noNames hr.2⟩)
    · intro s v s' hv
      simp only [eval, M.bind_eq_ok] at hv
      obtain ⟨c, s4, h4, hv⟩ := hv
      rw [M.ite_app] at hv
      split at hv
      · cases safe
        · cases hv
        · cases hv; trivial
      · simp only [evalSlice, M.bind_eq_ok, M.lift_eq_ok, M.pure_eq_ok] at hv
        obtain ⟨_, _, _, _, _, ⟨_, _⟩, _, _, _, _, _, ⟨_, _⟩, w, _, ⟨h6, _⟩, rfl, _⟩ := hv
        have := slice_literal (ha.gives hr.1.1 _ _ _ _ _ h4) h6
        rw [coerce_literal w this]
        exact this
  · rw [if_neg hr] at h
    cases h
    rfl

theorem build_of_part {codec : LitCodec} {env : Env} {dct : DecCtx} {t : List Char} {e : Expr} {raw : Raw}
    (h : Part codec env dct t e) (hm : Means codec t raw) :
    ∀ s, s.scopes = [] → ∃ s', build env dct raw s = (.ok e, s') ∧ s'.scopes = [] := by
  obtain ⟨r, hr, hb⟩ := h.build
  cases means_unique hm hr
  exact hb

/-- **C68.** `(a)[b:]` goes on to the end … -/
theorem slice_from_of_rules {codec : LitCodec} {env : Env} {a b : List Char} {l i e : Expr}
    (ha : Part codec env env.decCtx a l) (hb : Part codec env env.decCtx b i) (hg : NoGroups codec b) (safe : Bool)
    (acts : List TextAct)
    (h : outcome codec env env.decCtx acts (par a ++ ((if safe then "&[" else "[").toList ++ (b ++ [':', ']']))) = .ok e)
    (thing : Value) (p : Proc) :
    (p.evaluate env e thing).1 = sliceOn env safe (p.evaluate env l thing).1 (p.evaluate env i thing).1 (.ok .none) := by
  obtain ⟨ra, hma, -⟩ := ha.build
  obtain ⟨rb, hmb, -⟩ := hb.build
  exact slice_core (j := .lit .none .null) ha hma (means_slice_from hma hmb safe) (build_of_part hb hmb)
    (fun s hs => ⟨s, rfl, hs⟩) (fun _ _ => steady_part hb hg _ _ _) (fun _ _ _ _ => rfl) acts h thing p

/-- … `(a)[:c]` starts at the beginning … -/
theorem slice_to_of_rules {codec : LitCodec} {env : Env} {a c : List Char} {l j e : Expr}
    (ha : Part codec env env.decCtx a l) (hc : Part codec env env.decCtx c j) (hg : NoGroups codec c) (safe : Bool)
    (acts : List TextAct)
    (h : outcome codec env env.decCtx acts (par a ++ ((if safe then "&[" else "[").toList ++ (':' :: (c ++ [']'])))) = .ok e)
    (thing : Value) (p : Proc) :
    (p.evaluate env e thing).1 =
      sliceOn env safe (p.evaluate env l thing).1 (.ok (.dec (.ofInt 0))) (p.evaluate env j thing).1 := by
  obtain ⟨ra, hma, -⟩ := ha.build
  obtain ⟨rc, hmc, -⟩ := hc.build
  exact slice_core (i := .lit (.dec (.fin false 0 0)) .float) ha hma (means_slice_to hma hmc safe)
    (fun s hs => ⟨s, rfl, hs⟩) (build_of_part hc hmc) (fun _ _ _ _ => rfl) (fun _ _ => steady_part hc hg _ _ _) acts h thing p

/-- … and `(a)[:]` is all of it. -/
theorem slice_all_of_rule {codec : LitCodec} {env : Env} {a : List Char} {l e : Expr}
    (ha : Part codec env env.decCtx a l) (safe : Bool) (acts : List TextAct)
    (h : outcome codec env env.decCtx acts (par a ++ ((if safe then "&[" else "[").toList ++ [':', ']'])) = .ok e)
    (thing : Value) (p : Proc) :
    (p.evaluate env e thing).1 =
      sliceOn env safe (p.evaluate env l thing).1 (.ok (.dec (.ofInt 0))) (.ok .none) := by
  obtain ⟨ra, hma, -⟩ := ha.build
  exact slice_core (i := .lit (.dec (.fin false 0 0)) .float) (j := .lit .none .null) ha hma (means_slice_all hma safe)
    (fun s hs => ⟨s, rfl, hs⟩) (fun s hs => ⟨s, rfl, hs⟩) (fun _ _ _ _ => rfl) (fun _ _ _ _ => rfl) acts h thing p

/-- The hypotheses are met: `{x, 1}`, `(x).length`, and calling the method `(x).starts_with` on `y`. -/
example (codec : LitCodec) : ∃ l m r g e1 e2 e3,
    Part codec sampleEnv sampleEnv.decCtx ['x'] l ∧ Part codec sampleEnv sampleEnv.decCtx ['y'] m ∧
    Part codec sampleEnv sampleEnv.decCtx ['1'] r ∧
    Part codec sampleEnv sampleEnv.decCtx (attrText ['x'] "starts_with") g ∧ l.reduced = false ∧
    (∀ t ∈ [['x'], ['1']], NoGroups codec t) ∧ (∀ t ∈ [['y']], NoGroups codec t) ∧
    outcome codec sampleEnv sampleEnv.decCtx [] ('{' :: (commas [['x'], ['1']] ++ ['}'])) = .ok e1 ∧
    outcome codec sampleEnv sampleEnv.decCtx [] (attrText ['x'] "length") = .ok e2 ∧
    outcome codec sampleEnv sampleEnv.decCtx [] (par (attrText ['x'] "starts_with") ++ par (commas [['y']])) = .ok e3 ∧
    let thing := dictOf [("x", .str "abc"), ("y", .str "ab")]
    (Proc.new.evaluate sampleEnv e1 thing).1 = .ok (.set [.str "abc", .dec (.ofInt 1)]) ∧
    (Proc.new.evaluate sampleEnv e2 thing).1 = .ok (.dec (.ofInt 3)) ∧
    (Proc.new.evaluate sampleEnv e3 thing).1 = .ok (.bool true) := by
  have hx : Means codec ['x'] (.sym "x" false) := means_sym x_word
  have hy : Means codec ['y'] (.sym "y" false) := means_sym ⟨by decide, by decide⟩
  have h1 : Means codec ['1'] (.floatLit "1") := means_number one_number
  have hm : ∀ n : String, IsWord n.toList → n.toList.head? ≠ some '$' →
      Means codec (attrText ['x'] n) (.getAttr (.sym "x" false) n false) := by
    intro n h1 h2
    have := means_attr hx h1 h2 false
    rwa [String.ofList_toList] at this
  have hl := hm "length" ⟨by decide, by decide⟩ (by decide)
  have hw := hm "starts_with" ⟨by decide, by decide⟩ (by decide)
  refine ⟨_, _, _, _, _, _, _, ⟨⟨_, hx⟩, [], (rule_of_means hx).trans rfl⟩, ⟨⟨_, hy⟩, [], (rule_of_means hy).trans rfl⟩,
    ⟨⟨_, h1⟩, [], (rule_of_means h1).trans rfl⟩, ⟨⟨_, hw⟩, [], (rule_of_means hw).trans rfl⟩, rfl, ?_, ?_,
    (rule_of_means (means_set (.cons hx (.cons h1 .nil)) (by simp))).trans rfl,
    (rule_of_means hl).trans rfl, (rule_of_means (means_call hw (.cons hy .nil))).trans rfl, ?_⟩
  · intro t ht
    simp only [List.mem_cons, List.not_mem_nil, or_false] at ht
    rcases ht with rfl | rfl
    · exact ⟨_, hx, by simp [Raw.uses]⟩
    · exact ⟨_, h1, by simp [Raw.uses]⟩
  · intro t ht
    simp only [List.mem_cons, List.not_mem_nil, or_false] at ht
    subst ht
    exact ⟨_, hy, by simp [Raw.uses]⟩
  · decide +kernel

/-- The hypotheses are met: `{x: y, 1: x}` for a thing where the keys are equal, and `(y)[1:]`. -/
example (codec : LitCodec) : ∃ l m r e1 e2,
    List.Forall₂ (PartPair codec sampleEnv sampleEnv.decCtx) [(['x'], ['y']), (['1'], ['x'])] [(l, m), (r, l)] ∧
    (∀ t ∈ [(['x'], ['y']), (['1'], ['x'])], NoGroups codec t.1 ∧ NoGroups codec t.2) ∧
    outcome codec sampleEnv sampleEnv.decCtx [] ('{' :: (commas ([(['x'], ['y']), (['1'], ['x'])].map entry) ++ ['}'])) =
      .ok e1 ∧
    outcome codec sampleEnv sampleEnv.decCtx [] (par ['y'] ++ ("[".toList ++ (['1'] ++ [':', ']']))) = .ok e2 ∧
    let thing := dictOf [("x", .int 1), ("y", .str "abc")]
    (Proc.new.evaluate sampleEnv e1 thing).1 = .ok (.map .ordered [(.dec (.ofInt 1), .dec (.ofInt 1))]) ∧
    (Proc.new.evaluate sampleEnv e2 thing).1 = .ok (.str "bc") := by
  have hx : Means codec ['x'] (.sym "x" false) := means_sym x_word
  have hy : Means codec ['y'] (.sym "y" false) := means_sym ⟨by decide, by decide⟩
  have h1 : Means codec ['1'] (.floatLit "1") := means_number one_number
  have hmm := means_mapping (ts := [(['x'], ['y']), (['1'], ['x'])]) (rs := [(_, _), (_, _)]) (.cons ⟨hx, hy⟩ (.cons ⟨h1, hx⟩ .nil))
  refine ⟨_, _, _, _, _, .cons ⟨⟨⟨_, hx⟩, [], (rule_of_means hx).trans rfl⟩, ⟨⟨_, hy⟩, [], (rule_of_means hy).trans rfl⟩⟩
      (.cons ⟨⟨⟨_, h1⟩, [], (rule_of_means h1).trans rfl⟩, ⟨⟨_, hx⟩, [], (rule_of_means hx).trans rfl⟩⟩ .nil), ?_,
    (rule_of_means hmm).trans rfl, (rule_of_means (means_slice_from hy h1 false)).trans rfl, ?_⟩
  · intro t ht
    simp only [List.mem_cons, List.not_mem_nil, or_false] at ht
    rcases ht with rfl | rfl
    · exact ⟨⟨_, hx, by simp [Raw.uses]⟩, ⟨_, hy, by simp [Raw.uses]⟩⟩
    · exact ⟨⟨_, h1, by simp [Raw.uses]⟩, ⟨_, hx, by simp [Raw.uses]⟩⟩
  · decide +kernel

end RE
