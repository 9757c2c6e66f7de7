import Verif.Props.Settings
import Verif.Props.RuleText
import Verif.Props.Compose
import Verif.Props.RuleLaws
import Verif.Props.LiteralText
import Verif.Props.Gradual
import Verif.Props.Escape

/-!
# What the settings of a context can matter for, rules (C83)

Construction and evaluation of rules that use none of the exchanged settings.
-/

set_option linter.unusedSimpArgs false
set_option linter.unusedVariables false

namespace RE

section
variable {X : Exchange} {env other : Env} {dct dct' : DecCtx}

mutual
theorem ofValue_free {off : TzDb} : ∀ v : Value, v.Free X → (Expr.ofValue off v).Free X
  | .seq k xs, h => ofValues_free xs h
  | .set xs, h => ofValues_free xs h
  | .map k kvs, h => ofPairs_free kvs h
  | .date d, h => coerce_free (off := off) (.date d) h
  | .none, _ | .bool _, _ | .int _, _ | .float _, _ | .dec _, _ | .str _, _ | .bytes _, _
  | .timedelta _, _ | .userFn _, _ | .method .., _
  | .obj _, _ | .undef, _ => by simp [Expr.ofValue, Expr.Free, coerce, Value.Free]
  | .datetime us tz, h => coerce_free (off := off) (.datetime us tz) h
  | .builtinFn f, h => coerce_free (off := off) (.builtinFn f) h
theorem ofValues_free {off : TzDb} : ∀ vs : List Value, Value.AllFree X vs → Expr.AllFree X (Expr.ofValues off vs)
  | [], _ => trivial
  | v :: vs, h => ⟨ofValue_free v h.1, ofValues_free vs h.2⟩
theorem ofPairs_free {off : TzDb} : ∀ kvs : List (Value × Value), Value.PairsFree X kvs →
    Expr.PairsFree X (Expr.ofPairs off kvs)
  | [], _ => trivial
  | (k, v) :: kvs, h => ⟨ofValue_free k h.1, ofValue_free v h.2.1, ofPairs_free kvs h.2.2⟩
end

theorem litOf_settings {off : TzDb} {v : Value} {e : Expr} (hv : v.Free X) (h : litOf off v = .ok e) : e.Free X := by
  simp only [litOf, except_bind_ok, Except.ok.injEq] at h
  obtain ⟨_, -, rfl⟩ := h
  exact ofValue_free v hv

section
variable (hd : env.FreeData X) (hdc : X.decimals = false → dct' = dct)
include hd hdc

theorem foldLit_akin {e : Expr} (h : e.Free X) :
    Akin X (Expr.Free X) (foldLit (env.exchange X other) dct' e) (foldLit env dct e) :=
  (eval_akin hd hdc (thing := .none) trivial e h).bind fun v hv => Akin.lift rfl fun e he => litOf_settings hv he

omit hd hdc in
theorem check_same {op : BinOp} (h : X.op op = false) (l r : Expr) :
    BinOp.check (env.exchange X other) op l r = BinOp.check env op l r := by
  cases op with
  | fuzzy a b =>
    have h : X.regexes = false := h
    unfold BinOp.check
    simp [Env.exchange, h, Env.reError]
  | _ => rfl

theorem mkBin_akin {op : BinOp} (ho : X.op op = false) {l r : Expr} (hl : l.Free X) (hr : r.Free X) :
    Akin X (Expr.Free X) (mkBin (env.exchange X other) dct' op l r) (mkBin env dct op l r) := by
  unfold mkBin
  rw [check_same ho]
  exact Akin.skip.bind fun _ _ => Akin.ite (foldLit_akin hd hdc ⟨ho, hl, hr⟩) (Akin.pure ⟨ho, hl, hr⟩)

theorem mkContains_akin {c m : Expr} (hc : c.Free X) (hm : m.Free X) :
    Akin X (Expr.Free X) (mkContains (env.exchange X other) dct' c m) (mkContains env dct c m) := by
  unfold mkContains
  exact Akin.skip.bind fun _ _ => Akin.ite
    ((eval_akin hd hdc (thing := .none) trivial (.contains c m) ⟨hc, hm⟩).bind fun v hv => Akin.pure hv)
    (Akin.pure ⟨hc, hm⟩)

theorem mkGetAttr_akin {o : Expr} (ho : o.Free X) (name : String) (safe : Bool) :
    Akin X (Expr.Free X) (mkGetAttr (env.exchange X other) dct' o name safe) (mkGetAttr env dct o name safe) := by
  unfold mkGetAttr
  refine Akin.skip.bind fun _ _ => Akin.ite ((foldLit_akin hd hdc (e := .getAttr o name safe) ho).bind fun e he => ?_)
    (Akin.pure ho)
  split
  · exact Akin.ite (Akin.pure he) (Akin.pure he)
  · exact Akin.pure he

theorem mkGetItem_akin {c i : Expr} (hc : c.Free X) (hi : i.Free X) (safe : Bool) :
    Akin X (Expr.Free X) (mkGetItem (env.exchange X other) dct' c i safe) (mkGetItem env dct c i safe) := by
  unfold mkGetItem
  exact Akin.skip.bind fun _ _ => Akin.ite (Akin.pure trivial) (Akin.ite
    (foldLit_akin hd hdc (e := .getItem c i safe) ⟨hc, hi⟩) (Akin.pure ⟨hc, hi⟩))

theorem mkGetSlice_akin {c a b : Expr} (hc : c.Free X) (ha : a.Free X) (hb : b.Free X) (safe : Bool) :
    Akin X (Expr.Free X) (mkGetSlice (env.exchange X other) dct' c a b safe) (mkGetSlice env dct c a b safe) := by
  unfold mkGetSlice
  exact Akin.skip.bind fun _ _ => Akin.ite
    (foldLit_akin hd hdc (e := .getSlice c a b safe) ⟨hc, ha, hb⟩) (Akin.pure ⟨hc, ha, hb⟩)

theorem mkCall_akin {f : Expr} {args : List Expr} (hf : f.Free X) (ha : Expr.AllFree X args) :
    Akin X (Expr.Free X) (mkCall (env.exchange X other) dct' f args) (mkCall env dct f args) := by
  have hrest : Akin X (Expr.Free X)
      (if f.reduced && Expr.reducedList args then foldLit (env.exchange X other) dct' (.call f args)
        else pure (.call f args))
      (if f.reduced && Expr.reducedList args then foldLit env dct (.call f args) else pure (.call f args)) :=
    Akin.ite (foldLit_akin hd hdc (e := .call f args) ⟨hf, ha⟩) (Akin.pure ⟨hf, ha⟩)
  unfold mkCall
  exact Akin.ite hrest (Akin.skip.bind fun _ _ => hrest)

omit hd hdc in
theorem mkTern_free {c t f : Expr} (hc : c.Free X) (ht : t.Free X) (hf : f.Free X) : (mkTern c t f).Free X := by
  unfold mkTern
  split
  · split <;> assumption
  · exact ⟨hc, ht, hf⟩

theorem mkNot_akin {e : Expr} (he : e.Free X) :
    Akin X (Expr.Free X) (mkNot (env.exchange X other) dct' e) (mkNot env dct e) := by
  unfold mkNot
  exact Akin.ite ((eval_akin hd hdc (thing := .none) trivial (.not e) he).bind fun v hv => Akin.pure hv) (Akin.pure he)

theorem mkNeg_akin {e : Expr} (hx : X.decimals = false) (he : e.Free X) :
    Akin X (Expr.Free X) (mkNeg (env.exchange X other) dct' e) (mkNeg env dct e) := by
  unfold mkNeg
  refine Akin.ite ?_ (Akin.pure ⟨hx, he⟩)
  split
  · exact (eval_akin hd hdc (thing := .none) trivial (.neg _) ⟨hx, he⟩).bind fun v hv => Akin.pure hv
  · exact (eval_akin hd hdc (thing := .none) trivial (.neg _) ⟨hx, he⟩).bind fun v hv => Akin.pure hv
  · exact Akin.throw

omit hd hdc in
theorem mkSym_akin {name : String} {b : Bool} (h : b = true → X.name name = false) :
    Akin X (Expr.Free X) (mkSym (env.exchange X other) name b) (mkSym env name b) := by
  unfold mkSym
  refine Akin.bind (P := fun _ => True) ⟨fun s hs => ⟨rfl, fun _ _ => trivial, ⟨hs.scopes, hs.groups⟩⟩⟩ fun _ _ => ?_
  refine Akin.bind (P := fun _ => True) ⟨fun s hs => ⟨rfl, fun _ _ => trivial, ?_⟩⟩ fun t _ => Akin.pure h
  unfold ctxResolveType
  split
  · exact hs
  · split <;> exact hs

mutual
theorem build_akin : ∀ raw : Raw, raw.Plain → raw.Free X env →
    Akin X (Expr.Free X) (build (env.exchange X other) dct' raw) (build env dct raw)
  | .lit v, hp, _ => by
    simp only [build]
    refine Akin.lift rfl fun e he => ?_
    simp only [except_bind_ok, Except.ok.injEq] at he
    obtain ⟨t, -, rfl⟩ := he
    have hp : v.isToken = true := hp
    cases v <;> first | trivial | (simp [Value.isToken] at hp)
  | .floatLit s, _, _ => by
    simp only [build]
    refine Akin.lift rfl fun e he => ?_
    simp only [except_bind_ok, Except.ok.injEq] at he
    obtain ⟨t, -, rfl⟩ := he
    trivial
  | .datetimeLit s, _, h => by
    simp only [build]
    have h : X.timezone = true → ∀ us, env.isoparse s ≠ some (us, none) := h
    have hs : parseDatetime (env.exchange X other) s = parseDatetime env s := by
      have hi : (env.exchange X other).isoparse s = env.isoparse s := rfl
      unfold parseDatetime
      rw [hi]
      rcases hu : env.isoparse s with _ | ⟨us, _ | tz⟩
      · rfl
      · have : X.timezone = false := by
          cases hx : X.timezone
          · rfl
          · exact absurd hu (h hx us)
        simp [Env.exchange, this]
      · rfl
    rw [hs]
    refine Akin.lift rfl fun e he => ?_
    simp only [except_bind_ok, Except.ok.injEq] at he
    obtain ⟨v, hv, rfl⟩ := he
    unfold parseDatetime at hv
    split at hv <;> cases hv <;> trivial
  | .timedeltaLit s, _, _ => by
    simp only [build]
    refine Akin.lift rfl fun e he => ?_
    simp only [except_bind_ok, Except.ok.injEq] at he
    obtain ⟨t, -, rfl⟩ := he
    trivial
  | .array xs, hp, h => by
    simp only [build]; exact (buildList_akin xs hp h).bind fun _ he => Akin.pure he
  | .set xs, hp, h => by
    simp only [build]; exact (buildList_akin xs hp h).bind fun _ he => Akin.pure he
  | .mapping kvs, hp, h => by
    simp only [build]
    refine (buildPairs_akin kvs hp h).bind fun es hes => Akin.lift rfl fun e he => ?_
    simp only [mkMapping, except_bind_ok, Except.ok.injEq] at he
    obtain ⟨t, -, rfl⟩ := he
    exact hes
  | .bin op l x, hp, h => by
    simp only [build]
    exact (build_akin l hp.1 h.2.1).bind fun _ hl => (build_akin x hp.2 h.2.2).bind fun _ hx => mkBin_akin hd hdc h.1 hl hx
  | .comp result var iterable cond, hp, h => by
    simp only [build]
    refine (build_akin iterable hp.2.1 h.2.1).bind fun it hit => Akin.skip.bind fun ty _ => ?_
    refine Akin.bind (P := fun p : Expr × Expr => p.1.Free X ∧ p.2.Free X) (Akin.withScope trivial
      ((build_akin cond hp.2.2 h.2.2).bind fun _ hc =>
        (build_akin result hp.1 h.1).bind fun _ hr => Akin.pure ⟨hc, hr⟩)) fun p hp => ?_
    exact Akin.pure ⟨hp.2, hit, hp.1⟩
  | .contains c m, hp, h => by
    simp only [build]
    exact (build_akin c hp.1 h.1).bind fun _ hc => (build_akin m hp.2 h.2).bind fun _ hm => mkContains_akin hd hdc hc hm
  | .getAttr o name safe, hp, h => by
    simp only [build]
    exact (build_akin o hp h).bind fun _ ho => mkGetAttr_akin hd hdc ho _ _
  | .getItem c i safe, hp, h => by
    simp only [build]
    exact (build_akin c hp.1 h.1).bind fun _ hc => (build_akin i hp.2 h.2).bind fun _ hi => mkGetItem_akin hd hdc hc hi _
  | .getSlice c a b safe, hp, h => by
    simp only [build]
    exact (build_akin a hp.2.1 h.2.1).bind fun _ ha => (build_akin b hp.2.2 h.2.2).bind fun _ hb =>
      (build_akin c hp.1 h.1).bind fun _ hc => mkGetSlice_akin hd hdc hc ha hb _
  | .sym name b, _, h => by simp only [build]; exact mkSym_akin h
  | .call f args, hp, h => by
    simp only [build]
    exact (build_akin f hp.1 h.1).bind fun _ hf => (buildList_akin args hp.2 h.2).bind fun _ ha => mkCall_akin hd hdc hf ha
  | .tern c a b, hp, h => by
    simp only [build]
    exact (build_akin c hp.1 h.1).bind fun _ hc => (build_akin a hp.2.1 h.2.1).bind fun _ ha =>
      (build_akin b hp.2.2 h.2.2).bind fun _ hb => Akin.pure (mkTern_free hc ha hb)
  | .not e, hp, h => by
    simp only [build]; exact (build_akin e hp h).bind fun _ he => mkNot_akin hd hdc he
  | .neg e, hp, h => by
    simp only [build]; exact (build_akin e hp h.2).bind fun _ he => mkNeg_akin hd hdc h.1 he
theorem buildList_akin : ∀ xs : List Raw, Raw.PlainList xs → Raw.AllFree X env xs →
    Akin X (Expr.AllFree X) (buildList (env.exchange X other) dct' xs) (buildList env dct xs)
  | [], _, _ => by simp only [buildList]; exact Akin.pure trivial
  | x :: xs, hp, h => by
    simp only [buildList]
    exact (build_akin x hp.1 h.1).bind fun _ he => (buildList_akin xs hp.2 h.2).bind fun _ hes => Akin.pure ⟨he, hes⟩
theorem buildPairs_akin : ∀ xs : List (Raw × Raw), Raw.PlainPairs xs → Raw.PairsFree X env xs →
    Akin X (Expr.PairsFree X) (buildPairs (env.exchange X other) dct' xs) (buildPairs env dct xs)
  | [], _, _ => by simp only [buildPairs]; exact Akin.pure trivial
  | (k, v) :: xs, hp, h => by
    simp only [buildPairs]
    exact (build_akin k hp.1 h.1).bind fun _ hk => (build_akin v hp.2.1 h.2.1).bind fun _ hv =>
      (buildPairs_akin xs hp.2.2 h.2.2).bind fun _ hes => Akin.pure ⟨hk, hv, hes⟩
end
end

/-! ### Threads -/

theorem mkSym_stable (env : Env) (name : String) (b : Bool) : Stable (mkSym env name b) := by
  unfold mkSym
  refine stable_closed.bind (fun S s h => h) fun _ => stable_closed.bind (fun S s h => ?_) fun _ => stable_closed.lift _
  unfold ctxResolveType
  split
  · exact h
  · split <;> exact h

theorem build_stable (env : Env) (dct : DecCtx) (raw : Raw) : Stable (build env dct raw) :=
  build_un stable_closed dct (fun e _ => eval_stable env dct .none e) (mkSym_stable env) raw

theorem parseRule_stable (codec : LitCodec) (env : Env) (dct : DecCtx) (line : Nat) (text : String) :
    Stable (parseRule codec env dct line text) := by
  unfold parseRule
  split
  · exact build_stable env dct _
  · exact stable_closed.lift _

theorem ruleEval_during (env : Env) (e : Expr) (thing : Value) (s : St) : During [] (ruleEval env e thing s).2 :=
  eval_stable env env.decCtx thing e [] s.reset ⟨rfl, .inl rfl⟩

theorem textAct_during (codec : LitCodec) (env : Env) (a : TextAct) (p : Proc) (h : During [] p.st) :
    During [] (a.run codec env p).st := by
  cases a with
  | rule dct text => exact parseRule_stable codec env dct _ text [] p.st h
  | isValid dct text =>
    simp only [TextAct.run, Proc.isValid, isValidText_state]
    exact parseRule_stable codec env dct _ text [] p.st h
  | evaluate e t => exact ruleEval_during env e t p.st
  | isMatch e t =>
    simp only [TextAct.run]
    rw [ruleMatches_state]; exact ruleEval_during env e t p.st
  | filter e ts =>
    simp only [TextAct.run]
    generalize p.st = s at h
    induction ts generalizing s with
    | nil => exact h
    | cons t ts ih =>
      have hs : During [] (ruleMatches env e t s).2 := by rw [ruleMatches_state]; exact ruleEval_during env e t s
      simp only [ruleFilter]
      rcases hm : ruleMatches env e t s with ⟨err | b, s'⟩ <;> rw [hm] at hs
      · exact hs
      · have := ih s' hs
        cases b <;> exact this
  | elsewhere text => exact h

theorem runTexts_during (codec : LitCodec) (env : Env) (acts : List TextAct) :
    During [] (runTexts codec env acts Proc.new).st := by
  suffices ∀ p : Proc, During [] p.st → During [] (runTexts codec env acts p).st from this _ ⟨rfl, .inl rfl⟩
  induction acts with
  | nil => intro p h; exact h
  | cons a as ih => intro p h; exact ih _ (textAct_during codec env a p h)

theorem during_free {s : St} (h : During [] s) : St.Free X s := by
  refine ⟨by rw [h.1]; simp, ?_⟩
  rcases h.2 with h | ⟨xs, h, hx⟩
  · rw [h]; trivial
  · rw [h]
    refine tuple_free fun x hm => ?_
    rcases hx x hm with rfl | ⟨t, rfl⟩ <;> trivial

theorem ruleEval_akin (hd : env.FreeData X) {e : Expr} (he : e.Free X) {thing : Value} (ht : thing.Free X) (s : St) :
    ruleEval (env.exchange X other) e thing s = ruleEval env e thing s := by
  have hdc : X.decimals = false → (env.exchange X other).decCtx = env.decCtx := by
    intro h; simp [Env.exchange, h]
  exact ((eval_akin hd hdc ht e he).out s.reset (during_free ⟨rfl, .inl rfl⟩)).1

end

/-! ## C83 -/

/-- the text is a rule without names, operators and literals that use the exchanged settings (or it is no rule) -/
def UsesNone (X : Exchange) (codec : LitCodec) (env : Env) (text : String) : Prop :=
  ∀ line raw comment, (parseText codec line text).out = .ok (raw, comment) → raw.Free X env

/-- A rule that uses none of the exchanged settings: it is accepted or refused alike, and the rule that comes out is the
same; it gives the same value or raises the same exception for every thing without data that depends on them, matches
and filters alike, and leaves the thread alike. -/
theorem settings_matter_where_used (X : Exchange) (codec : LitCodec) (env other : Env) (hd : env.FreeData X)
    (acts : List TextAct) (dct dct' : DecCtx) (hdc : X.decimals = false → dct' = dct) (text : String)
    (hu : UsesNone X codec env text) :
    (runTexts codec env acts Proc.new).rule codec (env.exchange X other) dct' text =
      (runTexts codec env acts Proc.new).rule codec env dct text ∧
    ∀ e, ((runTexts codec env acts Proc.new).rule codec env dct text).1 = .ok e →
      ∀ (q : Proc),
        (∀ thing : Value, thing.Free X → q.evaluate (env.exchange X other) e thing = q.evaluate env e thing ∧
          ruleMatches (env.exchange X other) e thing q.st = ruleMatches env e thing q.st) ∧
        ∀ things : List Value, (∀ t ∈ things, t.Free X) →
          ruleFilter (env.exchange X other) e things q.st = ruleFilter env e things q.st := by
  have hs : St.Free X (runTexts codec env acts Proc.new).st := during_free (runTexts_during codec env acts)
  generalize runTexts codec env acts Proc.new = p at hs
  constructor
  · have : parseRule codec (env.exchange X other) dct' p.line text p.st = parseRule codec env dct p.line text p.st := by
      unfold parseRule
      cases hp : (parseText codec p.line text).out with
      | error err => rfl
      | ok v =>
        obtain ⟨raw, comment⟩ := v
        exact ((build_akin hd hdc raw (parse_plain codec _ _ _ _ hp) (hu _ _ _ hp)).out p.st hs).1
    simp only [Proc.rule, this]
  · intro e he q
    have hfree : e.Free X := by
      obtain ⟨raw, comment, hp, hpl, hb⟩ := parseRule_ok (codec := codec) (env := env) (dct := dct) (line := p.line)
        (text := text) (s := p.st) (s1 := (parseRule codec env dct p.line text p.st).2) (e := e)
        (Prod.ext he rfl)
      exact ((build_akin (other := other) hd hdc raw hpl (hu _ _ _ hp)).out p.st hs).2.1 e (congrArg Prod.fst hb)
    have hm : ∀ thing : Value, thing.Free X → ∀ s,
        ruleMatches (env.exchange X other) e thing s = ruleMatches env e thing s := by
      intro thing ht s
      unfold ruleMatches
      rw [M.bind_apply, M.bind_apply, ruleEval_akin hd hfree ht]
    refine ⟨fun thing ht => ⟨?_, hm thing ht q.st⟩, fun things ht => ?_⟩
    · simp only [Proc.evaluate, ruleEval_akin hd hfree ht]
    · generalize q.st = s
      induction things generalizing s with
      | nil => rfl
      | cons t ts ih =>
        have hts := ih fun u hu => ht u (by simp [hu])
        simp only [ruleFilter, hm t (ht t (by simp)), hts]

/-! ### Each setting alone -/

/-- the default timezone only -/
def timezoneOnly : Exchange := ⟨true, false, false⟩
/-- the decimal contexts only -/
def decimalsOnly : Exchange := ⟨false, true, false⟩
/-- the flags of regular expressions only -/
def regexesOnly : Exchange := ⟨false, false, true⟩

mutual
theorem free_any {X : Exchange} (ht : X.timezone = false) (hd : X.decimals = false) : ∀ v : Value, v.Free X
  | .seq k xs => free_anys ht hd xs
  | .set xs => free_anys ht hd xs
  | .map k kvs => free_anyps ht hd kvs
  | .date _ => ht
  | .builtinFn f => by
    simp only [Value.Free, Exchange.function]
    split <;> first | assumption | rfl
  | .none | .bool _ | .int _ | .float _ | .dec _ | .str _ | .bytes _
  | .timedelta _ | .userFn _ | .method .. | .obj _ | .undef => by simp [Value.Free]
  | .datetime _ .none => ht
  | .datetime _ (some _) => by simp [Value.Free]
theorem free_anys {X : Exchange} (ht : X.timezone = false) (hd : X.decimals = false) : ∀ vs : List Value, Value.AllFree X vs
  | [] => trivial
  | v :: vs => ⟨free_any ht hd v, free_anys ht hd vs⟩
theorem free_anyps {X : Exchange} (ht : X.timezone = false) (hd : X.decimals = false) :
    ∀ vs : List (Value × Value), Value.PairsFree X vs
  | [] => trivial
  | (k, v) :: vs => ⟨free_any ht hd k, free_any ht hd v, free_anyps ht hd vs⟩
end

/-- The flags of regular expressions: a rule without `=~`, `=~~`, `!~`, `!~~` is the same rule, and gives the same for
every thing, whatever resolver, functions and default value of the context are. -/
theorem regex_flags_matter_in_regexes (codec : LitCodec) (env other : Env) (acts : List TextAct) (dct : DecCtx) (text : String)
    (hu : UsesNone regexesOnly codec env text) :
    (runTexts codec env acts Proc.new).rule codec (env.exchange regexesOnly other) dct text =
      (runTexts codec env acts Proc.new).rule codec env dct text ∧
    ∀ e, ((runTexts codec env acts Proc.new).rule codec env dct text).1 = .ok e →
      ∀ (q : Proc) (thing : Value), q.evaluate (env.exchange regexesOnly other) e thing = q.evaluate env e thing := by
  have hf : ∀ v : Value, v.Free regexesOnly := free_any rfl rfl
  obtain ⟨h1, h2⟩ := settings_matter_where_used regexesOnly codec env other
    ⟨fun _ _ _ _ _ => hf _, fun _ _ _ _ _ => hf _, fun _ => hf _, fun _ _ => hf _⟩ acts dct dct (fun _ => rfl) text hu
  exact ⟨h1, fun e he q thing => ((h2 e he q).1 thing (hf _)).1⟩

/-! ### Each exclusion matters -/

/-- a context that differs from the sample in all three settings -/
def settingsEnv : Env := { sampleEnv with
  defaultTz := 5
  decCtx := { DecCtx.default with prec := 1 }
  reValid := fun _ => true
  reLimit := fun _ => false
  reRun := fun _ _ _ => none }

/-- the rule gives different results when the settings are exchanged -/
def Differs (codec : LitCodec) (X : Exchange) (text : List Char) (thing : Value) : Prop :=
  runText codec sampleEnv text thing ≠ runText codec (sampleEnv.exchange X settingsEnv) text thing

theorem means_datetime {codec : LitCodec} {t : List Char} (h : quotedBody '"' t = true) :
    Means codec ('d' :: '"' :: (t ++ ['"'])) (.datetimeLit (String.ofList t)) := by
  intro line
  have := parse_single codec line (.datetime t) rfl ⟨.DATETIME, t⟩ rfl ('d' :: '"' :: (t ++ ['"'])) [] []
    ⟨'"', rfl, h, rfl⟩ (fun _ => ⟨rfl, by simp⟩) rfl (by simp) (by simp)
  simpa [Syn.raw] using this

theorem usesNone_of_means {X : Exchange} {codec : LitCodec} {env : Env} {t : List Char} {raw : Raw}
    (h : Means codec t raw) (hr : raw.Free X env) : UsesNone X codec env (String.ofList t) := by
  intro line r c hp
  rw [h line] at hp
  cases hp
  exact hr

theorem differs_of {codec : LitCodec} {X : Exchange} {t : List Char} {raw : Raw} {thing : Value} (h : Means codec t raw)
    (hd : runRaw sampleEnv raw thing ≠ runRaw (sampleEnv.exchange X settingsEnv) raw thing) : Differs codec X t thing := by
  unfold Differs
  rw [runText_means h, runText_means h]
  exact hd

/-- Each exclusion matters.  The default timezone: for a thing with a datetime without a timezone or a date, for `$now`, `$today`,
`$parse_datetime` and a datetime literal without a timezone. -/
theorem timezone_matters (codec : LitCodec) :
    Differs codec timezoneOnly ['x'] (dictOf [("x", .datetime 5 none)]) ∧
    Differs codec timezoneOnly ['x'] (dictOf [("x", .date 5)]) ∧
    Differs codec timezoneOnly "$now".toList (dictOf []) ∧
    Differs codec timezoneOnly "$today".toList (dictOf []) ∧
    Differs codec timezoneOnly (builtinText "parse_datetime" [['x']]) (dictOf [("x", .str "2020-01-01")]) ∧
    Differs codec timezoneOnly ('d' :: '"' :: ("2020-01-01".toList ++ ['"'])) (dictOf []) :=
  ⟨differs_of (means_sym x_word) (by decide +kernel), differs_of (means_sym x_word) (by decide +kernel),
    differs_of (means_sym (n := "$now".toList) ⟨by decide, by decide⟩) (by decide +kernel),
    differs_of (means_sym (n := "$today".toList) ⟨by decide, by decide⟩) (by decide +kernel),
    differs_of (means_call (means_sym (n := '$' :: "parse_datetime".toList) ⟨by decide, by decide⟩)
      (.cons (means_sym x_word) .nil)) (by decide +kernel),
    differs_of (means_datetime (by decide)) (by decide +kernel)⟩

/-- The decimal contexts: for each arithmetic operator, the minus sign, `$abs` and `$sum`. -/
theorem decimals_matter (codec : LitCodec) :
    (∀ k ∈ [Kind.ADD, .SUB, .MUL, .TDIV, .FDIV, .MOD, .POW],
      Differs codec decimalsOnly (binText ['x'] k ['y']) (dictOf [("x", .int 123), ("y", .int 1)])) ∧
    Differs codec decimalsOnly ('-' :: par ['x']) (dictOf [("x", .int 123)]) ∧
    Differs codec decimalsOnly (builtinText "abs" [['x']]) (dictOf [("x", .int 123)]) ∧
    Differs codec decimalsOnly (builtinText "sum" [['x']]) (dictOf [("x", .seq .list [.int 123])]) := by
  refine ⟨?_, differs_of (means_neg (means_sym x_word)) (by decide +kernel),
    differs_of (means_call (means_sym (n := '$' :: "abs".toList) ⟨by decide, by decide⟩)
      (.cons (means_sym x_word) .nil)) (by decide +kernel),
    differs_of (means_call (means_sym (n := '$' :: "sum".toList) ⟨by decide, by decide⟩)
      (.cons (means_sym x_word) .nil)) (by decide +kernel)⟩
  intro k hk
  simp only [List.mem_cons, List.not_mem_nil, or_false] at hk
  rcases hk with rfl | rfl | rfl | rfl | rfl | rfl | rfl <;>
    exact differs_of (means_bin (means_sym x_word) (means_sym y_word) _ (by decide)) (by decide +kernel)

/-- The flags: for each of the four operators on regular expressions. -/
theorem regexes_matter (codec : LitCodec) : ∀ k ∈ [Kind.EQ_FZM, .EQ_FZS, .NE_FZM, .NE_FZS],
    Differs codec regexesOnly (binText ['x'] k ['x']) (dictOf [("x", .str "a")]) := by
  intro k hk
  simp only [List.mem_cons, List.not_mem_nil, or_false] at hk
  rcases hk with rfl | rfl | rfl | rfl <;>
    exact differs_of (means_bin (means_sym x_word) (means_sym x_word) _ (by decide)) (by decide +kernel)

/-! ### The hypotheses are met -/

theorem sample_freeData (X : Exchange) : sampleEnv.FreeData X where
  resolver o n v ho h := by
    cases o with
    | map k kvs =>
      simp only [sampleEnv, resolveItem] at h
      split at h
      · rename_i w hw
        cases h
        unfold mapLookup at hw
        rw [Option.map_eq_some_iff] at hw
        obtain ⟨p, hp, rfl⟩ := hw
        exact (pairsFree_iff.1 ho p (List.mem_of_find?_eq_some hp)).2
      · split at h <;> cases h
    | _ => cases h
  functions i args v ha h := by
    simp only [sampleEnv] at h
    split at h <;> cases h <;> first | exact ha _ (by simp) | trivial
  random b := trivial
  default v h := by cases h

/-- All settings exchanged: `(x) < (1)` is the same rule and gives the same; and it is a rule with a value. -/
example (codec : LitCodec) : sampleEnv.FreeData ⟨true, true, true⟩ ∧
    UsesNone ⟨true, true, true⟩ codec sampleEnv (String.ofList (binText ['x'] .LT ['1'])) ∧
    runText codec sampleEnv (binText ['x'] .LT ['1']) (dictOf [("x", .int 0)]) = .ok (.bool true) ∧
    (dictOf [("x", .int 0)]).Free ⟨true, true, true⟩ := by
  have h : Means codec (binText ['x'] .LT ['1']) _ := means_bin (means_sym x_word) (means_number one_number) .LT (by decide)
  refine ⟨sample_freeData _, usesNone_of_means h ⟨rfl, by simp [symRaw, Raw.Free], trivial⟩,
    (runText_means h _).trans (by decide +kernel), ?_⟩
  simp [dictOf, Value.Free, Value.PairsFree]

end RE
