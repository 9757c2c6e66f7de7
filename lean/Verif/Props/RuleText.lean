import Verif.Props.Lines
import Verif.Props.RuleApi
import Verif.Props.Typed

/-!
# Rules given as texts

The theorems about constructed rules speak of syntax trees.  Here they are connected to the texts the
trees come from.
-/

namespace RE

theorem token_plain {v : Value} (h : v.isToken = true) : (Raw.lit v).Plain := h

theorem symRaw_plain (n : List Char) : (symRaw n).Plain := by
  unfold symRaw
  split <;> trivial

mutual
theorem syn_plain (codec : LitCodec) : ∀ s : Syn, (s.raw codec).Plain
  | .bool _ | .null | .str _ | .bytes _ => rfl
  | .num _ | .nan | .inf | .datetime _ | .timedelta _ => trivial
  | .sym n => symRaw_plain n
  | .paren e => syn_plain codec e
  | .array _ xs _ => syn_plains codec xs
  | .set xs _ => syn_plains codec xs
  | .mapping kvs _ => syn_plainp codec kvs
  | .comp _ r _ it => ⟨syn_plain codec r, syn_plain codec it, rfl⟩
  | .compIf _ r _ it c => ⟨syn_plain codec r, syn_plain codec it, syn_plain codec c⟩
  | .attr o _ _ => syn_plain codec o
  | .item o i _ => ⟨syn_plain codec o, syn_plain codec i⟩
  | .slice o _ => ⟨syn_plain codec o, rfl, rfl⟩
  | .sliceTo o b _ => ⟨syn_plain codec o, rfl, syn_plain codec b⟩
  | .sliceFrom o a _ => ⟨syn_plain codec o, syn_plain codec a, rfl⟩
  | .sliceBoth o a b _ => ⟨syn_plain codec o, syn_plain codec a, syn_plain codec b⟩
  | .call f args => ⟨syn_plain codec f, syn_plains codec args⟩
  | .bin _ l r => ⟨syn_plain codec l, syn_plain codec r⟩
  | .isIn l r => ⟨syn_plain codec r, syn_plain codec l⟩
  | .notIn l r => ⟨syn_plain codec r, syn_plain codec l⟩
  | .tern c t f => ⟨syn_plain codec c, syn_plain codec t, syn_plain codec f⟩
  | .not e => syn_plain codec e
  | .neg e => syn_plain codec e
theorem syn_plains (codec : LitCodec) : ∀ xs : List Syn, Raw.PlainList (Syn.raws codec xs)
  | [] => trivial
  | x :: xs => ⟨syn_plain codec x, syn_plains codec xs⟩
theorem syn_plainp (codec : LitCodec) : ∀ xs : List (Syn × Syn), Raw.PlainPairs (Syn.rawPairs codec xs)
  | [] => trivial
  | (k, v) :: xs => ⟨syn_plain codec k, syn_plain codec v, syn_plainp codec xs⟩
end

/-- Every tree the parser makes is plain. -/
theorem parse_plain (codec : LitCodec) (line : Nat) (text : String) (raw : Raw) (comment : Option String)
    (h : (parseText codec line text).out = .ok (raw, comment)) : raw.Plain := by
  obtain ⟨s, -, -, rfl, -⟩ := parse_text_only codec line text raw comment h
  exact syn_plain codec s

/-! ## A rule made from a text is a rule made from a plain tree -/

theorem parseRule_ok {codec : LitCodec} {env : Env} {dct : DecCtx} {line : Nat} {text : String} {s s1 : St}
    {e : Expr} (h : parseRule codec env dct line text s = (.ok e, s1)) :
    ∃ raw comment, (parseText codec line text).out = .ok (raw, comment) ∧ raw.Plain ∧
      construct env dct raw s = (.ok e, s1) := by
  unfold parseRule at h
  cases hp : (parseText codec line text).out with
  | ok v =>
    obtain ⟨raw, comment⟩ := v
    rw [hp] at h
    exact ⟨raw, comment, rfl, parse_plain codec line text raw comment hp, h⟩
  | error err => rw [hp] at h; cases h

/-- **C50.** What a rule made from any text returns is normalised. -/
theorem text_result_normal (codec : LitCodec) (env : Env) (dct : DecCtx) (line : Nat) (text : String)
    (s s1 : St) (e : Expr) (hb : parseRule codec env dct line text s = (.ok e, s1)) (thing : Value)
    (s2 s3 : St) (v : Value) (hv : ruleEval env e thing s2 = (.ok v, s3)) : v.Normal := by
  obtain ⟨raw, _, -, hp, hc⟩ := parseRule_ok hb
  exact result_normal env dct raw hp s s1 e hc thing s2 s3 v hv

/-- **C27.** A datetime returned by a rule made from any text has a timezone. -/
theorem text_datetimes_are_aware (codec : LitCodec) (env : Env) (dct : DecCtx) (line : Nat) (text : String)
    (s s1 : St) (e : Expr) (hb : parseRule codec env dct line text s = (.ok e, s1)) (thing : Value)
    (s2 s3 : St) (us : Int) (tz : Option Nat)
    (hv : ruleEval env e thing s2 = (.ok (.datetime us tz), s3)) : ∃ z, tz = some z := by
  obtain ⟨raw, _, -, hp, hc⟩ := parseRule_ok hb
  exact rule_datetimes_are_aware env dct raw hp s s1 e hc thing s2 s3 us tz hv

/-- **C29** (partly).  An exception of Python that escapes the evaluation of a rule made from any text
comes from one of the operations named in `Fault`. -/
theorem text_escape_origin_partial (codec : LitCodec) (env : Env) (dct : DecCtx) (line : Nat) (text : String)
    (s s1 : St) (e : Expr) (hb : parseRule codec env dct line text s = (.ok e, s1)) (thing : Value)
    (s2 s3 : St) (k : PyErr) (hv : ruleEval env e thing s2 = (.error (.py k), s3)) :
    Fault env env.decCtx thing e [] := by
  obtain ⟨raw, _, -, hp, hc⟩ := parseRule_ok hb
  exact escape_origin_partial env dct raw hp s s1 e hc thing s2 s3 k hv

/-! ## Names of variables -/

mutual
/-- the names of the comprehension variables of a rule -/
def Raw.varNames : Raw → List String
  | .lit _ | .floatLit _ | .datetimeLit _ | .timedeltaLit _ => []
  | .array xs => Raw.varNamesList xs
  | .set xs => Raw.varNamesList xs
  | .mapping kvs => Raw.varNamesPairs kvs
  | .bin _ l r => l.varNames ++ r.varNames
  | .comp result v iterable cond => v :: (result.varNames ++ iterable.varNames ++ cond.varNames)
  | .contains c m => c.varNames ++ m.varNames
  | .getAttr o _ _ => o.varNames
  | .getItem c i _ => c.varNames ++ i.varNames
  | .getSlice c a b _ => c.varNames ++ a.varNames ++ b.varNames
  | .sym _ _ => []
  | .call f args => f.varNames ++ Raw.varNamesList args
  | .tern c t f => c.varNames ++ t.varNames ++ f.varNames
  | .not e => e.varNames
  | .neg e => e.varNames
/-- members -/
def Raw.varNamesList : List Raw → List String
  | [] => []
  | x :: xs => x.varNames ++ Raw.varNamesList xs
/-- items -/
def Raw.varNamesPairs : List (Raw × Raw) → List String
  | [] => []
  | (k, v) :: xs => k.varNames ++ v.varNames ++ Raw.varNamesPairs xs
end

/-- `Good A r`: the attribute names of `r` are in `A`, its variables are not -/
def Apart (A : String → Prop) (attrs vars : List String) : Prop :=
  (∀ n ∈ attrs, A n) ∧ ∀ n ∈ vars, ¬A n

theorem apart_append {A : String → Prop} {a1 a2 v1 v2 : List String} :
    Apart A (a1 ++ a2) (v1 ++ v2) ↔ Apart A a1 v1 ∧ Apart A a2 v2 := by
  simp only [Apart, List.mem_append]
  constructor
  · rintro ⟨h1, h2⟩
    exact ⟨⟨fun n h => h1 n (.inl h), fun n h => h2 n (.inl h)⟩,
      ⟨fun n h => h1 n (.inr h), fun n h => h2 n (.inr h)⟩⟩
  · rintro ⟨⟨h1, h2⟩, h3, h4⟩
    exact ⟨fun n h => h.elim (h1 n) (h3 n), fun n h => h.elim (h2 n) (h4 n)⟩

theorem meaning_sane (k : Kind) : (meaning k).sane = true := by cases k <;> rfl

theorem symRaw_sane {A : String → Prop} (n : List Char) : (symRaw n).Sane A := by
  unfold symRaw
  split <;> trivial

mutual
theorem syn_sane (codec : LitCodec) {A : String → Prop} : ∀ s : Syn,
    Apart A (s.raw codec).attrNames (s.raw codec).varNames → (s.raw codec).Sane A
  | .bool _, _ | .null, _ | .str _, _ | .bytes _, _ => rfl
  | .num _, _ | .nan, _ | .inf, _ | .datetime _, _ | .timedelta _, _ => trivial
  | .sym n, _ => symRaw_sane n
  | .paren e, h => syn_sane codec e h
  | .array _ xs _, h => syn_sanes codec xs h
  | .set xs _, h => syn_sanes codec xs h
  | .mapping kvs _, h => syn_sanep codec kvs h
  | .comp _ r v it, h => by
    have h' : Apart A ((r.raw codec).attrNames ++ (it.raw codec).attrNames)
        ((r.raw codec).varNames ++ (it.raw codec).varNames) :=
      ⟨fun n hn => h.1 n (by simpa [Syn.raw, Raw.attrNames] using hn),
       fun n hn => h.2 n (by simp [Syn.raw, Raw.varNames]; right; simpa using hn)⟩
    obtain ⟨h1, h2⟩ := apart_append.1 h'
    exact ⟨h.2 _ (by simp [Syn.raw, Raw.varNames]), syn_sane codec r h1, syn_sane codec it h2, rfl⟩
  | .compIf _ r v it c, h => by
    have h' : Apart A ((r.raw codec).attrNames ++ (it.raw codec).attrNames ++ (c.raw codec).attrNames)
        ((r.raw codec).varNames ++ (it.raw codec).varNames ++ (c.raw codec).varNames) :=
      ⟨h.1, fun n hn => h.2 n (List.mem_cons_of_mem _ hn)⟩
    obtain ⟨h1, h3⟩ := apart_append.1 h'
    obtain ⟨h1, h2⟩ := apart_append.1 h1
    exact ⟨h.2 _ (by simp [Syn.raw, Raw.varNames]), syn_sane codec r h1, syn_sane codec it h2,
      syn_sane codec c h3⟩
  | .attr o n _, h =>
    ⟨h.1 _ (by simp [Syn.raw, Raw.attrNames]),
      syn_sane codec o ⟨fun m hm => h.1 m (List.mem_cons_of_mem _ hm), h.2⟩⟩
  | .item o i _, h => ⟨syn_sane codec o (apart_append.1 h).1, syn_sane codec i (apart_append.1 h).2⟩
  | .slice o _, h =>
    ⟨syn_sane codec o (apart_append.1 (apart_append.1 h).1).1, rfl, rfl⟩
  | .sliceTo o b _, h =>
    ⟨syn_sane codec o (apart_append.1 (apart_append.1 h).1).1, rfl, syn_sane codec b (apart_append.1 h).2⟩
  | .sliceFrom o a _, h =>
    ⟨syn_sane codec o (apart_append.1 (apart_append.1 h).1).1,
      syn_sane codec a (apart_append.1 (apart_append.1 h).1).2, rfl⟩
  | .sliceBoth o a b _, h =>
    ⟨syn_sane codec o (apart_append.1 (apart_append.1 h).1).1,
      syn_sane codec a (apart_append.1 (apart_append.1 h).1).2, syn_sane codec b (apart_append.1 h).2⟩
  | .call f args, h => ⟨syn_sane codec f (apart_append.1 h).1, syn_sanes codec args (apart_append.1 h).2⟩
  | .bin op l r, h =>
    ⟨meaning_sane op, syn_sane codec l (apart_append.1 h).1, syn_sane codec r (apart_append.1 h).2⟩
  | .isIn l r, h => ⟨syn_sane codec r (apart_append.1 h).1, syn_sane codec l (apart_append.1 h).2⟩
  | .notIn l r, h => ⟨syn_sane codec r (apart_append.1 h).1, syn_sane codec l (apart_append.1 h).2⟩
  | .tern c t f, h =>
    ⟨syn_sane codec c (apart_append.1 (apart_append.1 h).1).1,
      syn_sane codec t (apart_append.1 (apart_append.1 h).1).2, syn_sane codec f (apart_append.1 h).2⟩
  | .not e, h => syn_sane codec e h
  | .neg e, h => syn_sane codec e h
theorem syn_sanes (codec : LitCodec) {A : String → Prop} : ∀ xs : List Syn,
    Apart A (Raw.attrNamesList (Syn.raws codec xs)) (Raw.varNamesList (Syn.raws codec xs)) →
    Raw.SaneList A (Syn.raws codec xs)
  | [], _ => trivial
  | x :: xs, h => ⟨syn_sane codec x (apart_append.1 h).1, syn_sanes codec xs (apart_append.1 h).2⟩
theorem syn_sanep (codec : LitCodec) {A : String → Prop} : ∀ xs : List (Syn × Syn),
    Apart A (Raw.attrNamesPairs (Syn.rawPairs codec xs)) (Raw.varNamesPairs (Syn.rawPairs codec xs)) →
    Raw.SanePairs A (Syn.rawPairs codec xs)
  | [], _ => trivial
  | (k, v) :: xs, h =>
    ⟨syn_sane codec k (apart_append.1 (apart_append.1 h).1).1,
      syn_sane codec v (apart_append.1 (apart_append.1 h).1).2, syn_sanep codec xs (apart_append.1 h).2⟩
end

/-- Every tree the parser makes is sane if none of its comprehension variables is also the name of one of
its attribute accesses. -/
theorem parse_sane (codec : LitCodec) (line : Nat) (text : String) (raw : Raw) (comment : Option String)
    (h : (parseText codec line text).out = .ok (raw, comment))
    (hv : ∀ x ∈ raw.varNames, x ∉ raw.attrNames) : raw.Sane (· ∈ raw.attrNames) := by
  obtain ⟨s, -, -, rfl, -⟩ := parse_text_only codec line text raw comment h
  exact syn_sane codec s ⟨fun _ h => h, hv⟩

/-- **C08** (partly: the types of the context are honest and the variables have names of their own).  A rule
made from any text returns null or a value of the type it has. -/
theorem text_type_soundness_partial (codec : LitCodec) (env : Env) (st : Prop) (dct : DecCtx) (line : Nat)
    (text : String) (raw : Raw) (comment : Option String)
    (ht : (parseText codec line text).out = .ok (raw, comment))
    (hvars : ∀ x ∈ raw.varNames, x ∉ raw.attrNames) (thing : Value)
    (H : env.Honest st (· ∈ raw.attrNames) thing) (s s1 : St) (hs : s.scopes = []) (e : Expr)
    (hb : parseRule codec env dct line text s = (.ok e, s1)) (s2 s3 : St) (v : Value)
    (hv : ruleEval env e thing s2 = (.ok v, s3)) : v = .none ∨ v.HasType env.Returns e.rt := by
  have hc : construct env dct raw s = (.ok e, s1) := by simpa [parseRule, ht] using hb
  exact type_soundness_partial env st _ dct raw thing H (parse_sane codec line text raw comment ht hvars)
    s s1 hs e hc s2 s3 v hv

/-! ## C31 on texts -/

/-- **C31** (partly: other exceptions than EngineErrors escape `is_valid`).  `is_valid` on a text is True
exactly when the rule can be constructed from it, and False exactly when construction raises an
EngineError; every syntax error is one. -/
theorem text_is_valid_partial (codec : LitCodec) (env : Env) (dct : DecCtx) (line : Nat) (text : String)
    (s : St) :
    ((isValidText codec env dct line text s).1 = .ok true ↔
      ∃ e, (parseRule codec env dct line text s).1 = .ok e) ∧
    ((isValidText codec env dct line text s).1 = .ok false ↔
      ∃ e, (parseRule codec env dct line text s).1 = .error (.eng e)) ∧
    (∀ e, (parseText codec line text).out = .error e →
      (isValidText codec env dct line text s).1 = .ok false) := by
  refine ⟨?_, ?_, ?_⟩
  · unfold isValidText
    rcases h : parseRule codec env dct line text s with ⟨(_ | _) | _, s'⟩ <;> simp
  · unfold isValidText
    rcases h : parseRule codec env dct line text s with ⟨(_ | _) | _, s'⟩ <;> simp
  · intro e he
    have := parse_total codec line text
    have hp : parseRule codec env dct line text s = (.error e.toErr, s) := by
      simp only [parseRule, he]; rfl
    simp only [isValidText, hp]
    cases e <;> first | rfl | exact absurd he this

/-! ## C17 on texts -/

/-- What a process can have done before: with rules of the same Context, or with a rule text in another
Context (which shares only the lexer). -/
inductive TextAct where
  | rule (dct : DecCtx) (text : String)
  | isValid (dct : DecCtx) (text : String)
  | evaluate (e : Expr) (thing : Value)
  | isMatch (e : Expr) (thing : Value)
  | filter (e : Expr) (things : List Value)
  | elsewhere (text : String)

/-- the process after an action, whether it returned or raised -/
def TextAct.run (codec : LitCodec) (env : Env) : TextAct → Proc → Proc
  | .rule dct text, p => (p.rule codec env dct text).2
  | .isValid dct text, p => (p.isValid codec env dct text).2
  | .evaluate e thing, p => (p.evaluate env e thing).2
  | .isMatch e thing, p => ⟨p.line, (ruleMatches env e thing p.st).2⟩
  | .filter e things, p => ⟨p.line, (ruleFilter env e things p.st).2⟩
  | .elsewhere text, p => ⟨(parseText codec p.line text).line, p.st⟩

/-- the process after a history of actions -/
def runTexts (codec : LitCodec) (env : Env) (acts : List TextAct) (p : Proc) : Proc :=
  acts.foldl (fun p a => a.run codec env p) p

theorem parseRule_scopes (codec : LitCodec) (env : Env) (dct : DecCtx) (line : Nat) (text : String) (s : St) :
    (parseRule codec env dct line text s).2.scopes = s.scopes := by
  unfold parseRule
  cases (parseText codec line text).out with
  | ok v => exact construct_restores_variables env dct _ s
  | error err => rfl

theorem isValidText_state (codec : LitCodec) (env : Env) (dct : DecCtx) (line : Nat) (text : String) (s : St) :
    (isValidText codec env dct line text s).2 = (parseRule codec env dct line text s).2 := by
  unfold isValidText
  rcases parseRule codec env dct line text s with ⟨(_ | _) | _, s'⟩ <;> rfl

theorem textAct_scopes (codec : LitCodec) (env : Env) (a : TextAct) (p : Proc) (h : p.st.scopes = []) :
    (a.run codec env p).st.scopes = [] := by
  cases a with
  | rule dct text => exact (parseRule_scopes codec env dct _ text p.st).trans h
  | isValid dct text =>
    simp only [TextAct.run, Proc.isValid, isValidText_state]
    exact (parseRule_scopes codec env dct _ text p.st).trans h
  | evaluate e t => exact ruleEval_scopes env e t p.st
  | isMatch e t =>
    simp only [TextAct.run]
    rw [ruleMatches_state]; exact ruleEval_scopes env e t p.st
  | filter e ts => exact ruleFilter_scopes env e ts p.st h
  | elsewhere text => exact h

theorem runTexts_scopes (codec : LitCodec) (env : Env) (acts : List TextAct) :
    (runTexts codec env acts Proc.new).st.scopes = [] := by
  suffices ∀ p : Proc, p.st.scopes = [] → (runTexts codec env acts p).st.scopes = [] from this _ rfl
  induction acts with
  | nil => intro p h; exact h
  | cons a as ih => intro p h; exact ih _ (textAct_scopes codec env a p h)

theorem toErr_shift (k : Nat) (e : PErr) : (e.shift k).toErr = e.toErr := by cases e <;> rfl

/-- The line counter has no influence on the rule that is made, or on the class of the exception. -/
theorem parseRule_line (codec : LitCodec) (env : Env) (dct : DecCtx) (line line' : Nat) (text : String) :
    parseRule codec env dct line text = parseRule codec env dct line' text := by
  suffices ∀ l, parseRule codec env dct l text = parseRule codec env dct 0 text from
    (this line).trans (this line').symm
  intro l
  have := parse_shift codec 0 l text
  rw [Nat.zero_add] at this
  unfold parseRule
  rw [this]
  simp only [PResult.shift]
  cases (parseText codec 0 text).out with
  | ok v => rfl
  | error e => simp only [toErr_shift]

/-- The outcome of `Rule(text)` depends on the text and the context only. -/
theorem parseRule_outcome (codec : LitCodec) (env : Env) (dct : DecCtx) (line line' : Nat) (text : String)
    (s s' : St) (h : s.scopes = s'.scopes) :
    (parseRule codec env dct line text s).1 = (parseRule codec env dct line' text s').1 := by
  rw [parseRule_line codec env dct line line' text]
  unfold parseRule
  cases (parseText codec line' text).out with
  | error err => rfl
  | ok v =>
    obtain ⟨raw, comment⟩ := v
    obtain ⟨x, sy', l, hx⟩ := construct_framed2 env dct raw s.scopes
    obtain ⟨sc, g, sy, lg⟩ := s
    obtain ⟨sc', g', sy2, lg'⟩ := s'
    simp only at h hx
    subst h
    simp only [hx g sy lg, hx g' sy2 lg']

/-- **C17.** What `Rule(text)` returns or raises is the same after any history of constructed, refused and
evaluated rules, in this Context and in others, as in a new process. -/
theorem rule_independent_of_history (codec : LitCodec) (env : Env) (acts : List TextAct) (dct : DecCtx)
    (text : String) :
    ((runTexts codec env acts Proc.new).rule codec env dct text).1 =
      (Proc.new.rule codec env dct text).1 :=
  parseRule_outcome codec env dct _ _ text _ _ (runTexts_scopes codec env acts)

/-- **C17.** So is what `Rule.is_valid(text)` returns or raises. -/
theorem is_valid_independent_of_history (codec : LitCodec) (env : Env) (acts : List TextAct) (dct : DecCtx)
    (text : String) :
    ((runTexts codec env acts Proc.new).isValid codec env dct text).1 =
      (Proc.new.isValid codec env dct text).1 := by
  have h : ∀ (line : Nat) (s : St), (isValidText codec env dct line text s).1 =
      match (parseRule codec env dct line text s).1 with
      | .ok _ => .ok true
      | .error (.eng _) => .ok false
      | .error (.py k) => .error (.py k) := by
    intro line s
    unfold isValidText
    rcases parseRule codec env dct line text s with ⟨(_ | _) | _, s'⟩ <;> rfl
  simp only [Proc.isValid, h]
  rw [parseRule_outcome codec env dct (runTexts codec env acts Proc.new).line Proc.new.line text
    (runTexts codec env acts Proc.new).st Proc.new.st (runTexts_scopes codec env acts)]

/-- **C17.** And what a rule made from a text returns or raises for a thing: the whole of
`Rule(text).evaluate(thing)` after any history is what it is in a new process. -/
theorem rule_and_evaluation_independent_of_history (codec : LitCodec) (env : Env) (acts acts' : List TextAct)
    (dct : DecCtx) (text : String) (e : Expr) (thing : Value)
    (h : ((runTexts codec env acts Proc.new).rule codec env dct text).1 = .ok e) :
    (Proc.new.rule codec env dct text).1 = .ok e ∧
    ((runTexts codec env (acts ++ .rule dct text :: acts') Proc.new).evaluate env e thing).1 =
      ((Proc.new.rule codec env dct text).2.evaluate env e thing).1 :=
  ⟨(rule_independent_of_history codec env acts dct text).symm.trans h,
   (ruleEval_state_independent env e thing _ _).1⟩

/-! ## C14 and C33 on texts -/

/-- **C14.** Every name looked up on the thing by a rule made from a text is among the symbols recorded
during its construction; every other lookup is for the name of an attribute access of the rule. -/
theorem text_symbols_cover_lookups (codec : LitCodec) (env : Env) (dct : DecCtx) (line : Nat) (text : String)
    (raw : Raw) (comment : Option String) (ht : (parseText codec line text).out = .ok (raw, comment))
    (s s' : St) (e : Expr) (hc : parseRule codec env dct line text s = (.ok e, s')) (thing : Value) (s2 : St)
    (o : Value) (n : String) (h : Event.resolve o n ∈ eventsOf (ruleEval env e thing) s2) :
    (o = thing ∧ n ∈ s'.symbols) ∨ n ∈ raw.attrNames :=
  symbols_cover_lookups env dct raw s s' e (by simpa [parseRule, ht] using hc) thing s2 o n h

/-- **C33.** A text that refers to a symbol the type dictionary does not have is never made into a rule,
whatever was done before. -/
theorem text_unknown_symbol_rejected (codec : LitCodec) (env : Env) (d : List (String × DataType))
    (htr : env.typeResolver = typeResolverFromDict d) (dct : DecCtx) (text : String) (raw : Raw)
    (comment : Option String) (ht : (parseText codec 1 text).out = .ok (raw, comment)) (name : String)
    (hr : raw.Refers name) (hd : name ∉ d.map Prod.fst) (acts : List TextAct) :
    ∃ err, ((runTexts codec env acts Proc.new).rule codec env dct text).1 = .error err := by
  rw [rule_independent_of_history]
  obtain ⟨err, h⟩ := unknown_symbol_rejected env d htr dct raw name hr hd []
  refine ⟨err, ?_⟩
  simp only [Proc.rule, parseRule, Proc.new, ht]
  exact h

/-! ## The hypotheses are met -/

/-- `Rule(text, context).evaluate(thing)` in a process -/
def Proc.run (codec : LitCodec) (env : Env) (text : String) (thing : Value) (p : Proc) : Except Err Value :=
  match p.rule codec env .default text with
  | (.ok e, p') => (p'.evaluate env e thing).1
  | (.error err, _) => .error err

/-- texts that become rules, one that is refused, and one whose evaluation raises, after a history in which
texts were refused and evaluations raised -/
example :
    let acts := [TextAct.rule .default "1 +\n\n", .elsewhere "x\n ~", .isValid .default "y\n.length",
      .evaluate (.sym "nope" .undefined false) .none]
    let p := runTexts plainCodec sampleEnv acts Proc.new
    let thing := dictOf [("xs", .seq .list [.int 1, .int 2, .int 3]), ("when", .datetime 5 none)]
    p.run plainCodec sampleEnv "[x * 2 for x in xs[:2] if x > 1] # doubled" thing =
      .ok (.tuple [.dec (.fin false 4 0)]) ∧
    p.run plainCodec sampleEnv "xs.length\n not in {1, 2} and 'a' + \"b\" == 'ab'" thing = .ok (.bool true) ∧
    p.run plainCodec sampleEnv "when + t'P1D'" thing = .ok (.datetime (5 + dayUs) (some 0)) ∧
    p.run plainCodec sampleEnv "1 ==" thing = .error (.eng .ruleSyntax) ∧
    p.run plainCodec sampleEnv "y" thing = .error (.eng (.symbolResolution "y")) ∧
    p.line = 5 := by
  refine ⟨?_, ?_, ?_, ?_, ?_, ?_⟩ <;> decide +kernel

/-- `[length.days for length in xs]`: not apart; `[x.days for x in xs]`: apart -/
example : (match (parseText plainCodec 1 "[x.days for x in xs]").out with
      | .ok (raw, _) => some (raw.varNames, raw.attrNames)
      | .error _ => none) = some (["x"], ["days"]) := by
  decide +kernel

end RE
