import Verif.Model.RuleClass
import Verif.Props.RuleText
import Verif.Props.Laws

/-!
# `Rule` and `DebugRule` (C78)

`DebugRule` is the class to use when a rule text is refused and one wants to know why.  It makes its own
parser.  So it makes the same rules, it reports the line of a syntax error exactly whatever was parsed
before, and it leaves no trace in the parser the other rules share.  But it cannot be asked whether a text
is valid.
-/

namespace RE

/-- What a process can have done before: made a rule or asked for its validity with either class, or any
of the actions of C17. -/
inductive ClassAct where
  | new (cls : RuleClass) (dct : DecCtx) (text : String)
  | isValid (cls : RuleClass) (dct : DecCtx) (text : String)
  | act (a : TextAct)

/-- the process after an action, whether it returned or raised -/
def ClassAct.run (codec : LitCodec) (env : Env) : ClassAct → Proc → Proc
  | .new cls dct text, p => (cls.new codec env dct text p).proc
  | .isValid cls dct text, p => (cls.isValid codec env dct text p).2
  | .act a, p => a.run codec env p

/-- the process after a history of actions -/
def runClasses (codec : LitCodec) (env : Env) (acts : List ClassAct) (p : Proc) : Proc :=
  acts.foldl (fun p a => a.run codec env p) p

/-- the action is one of `DebugRule` -/
def ClassAct.ofDebug : ClassAct → Bool
  | .new .debugRule _ _ => true
  | .isValid .debugRule _ _ => true
  | _ => false

theorem new_st (codec : LitCodec) (env : Env) (dct : DecCtx) (cls : RuleClass) (text : String) (p : Proc) :
    (cls.new codec env dct text p).proc.st.scopes = p.st.scopes := by
  cases cls <;> exact parseRule_scopes codec env dct _ text p.st

theorem classAct_scopes (codec : LitCodec) (env : Env) (a : ClassAct) (p : Proc) (h : p.st.scopes = []) :
    (a.run codec env p).st.scopes = [] := by
  cases a with
  | new cls dct text => exact (new_st codec env dct cls text p).trans h
  | isValid cls dct text =>
    cases cls with
    | rule => exact textAct_scopes codec env (.isValid dct text) p h
    | debugRule => exact h
  | act a => exact textAct_scopes codec env a p h

theorem runClasses_scopes (codec : LitCodec) (env : Env) (acts : List ClassAct) :
    (runClasses codec env acts Proc.new).st.scopes = [] := by
  suffices ∀ p : Proc, p.st.scopes = [] → (runClasses codec env acts p).st.scopes = [] from this _ rfl
  induction acts with
  | nil => intro p h; exact h
  | cons a as ih => intro p h; exact ih _ (classAct_scopes codec env a p h)

/-- the actions that only matter for the storage of the thread leave the line counter -/
theorem act_line (codec : LitCodec) (env : Env) (a : ClassAct) (h : a.ofDebug = true) (p : Proc) :
    (a.run codec env p).line = p.line := by
  cases a with
  | new cls dct text => cases cls <;> simp_all [ClassAct.ofDebug, ClassAct.run, RuleClass.new]
  | isValid cls dct text =>
    cases cls <;> simp_all [ClassAct.ofDebug, ClassAct.run, RuleClass.isValid, RuleClass.parser]
  | act a => simp [ClassAct.ofDebug] at h

/-- the line counter after an action depends on the line counter before only -/
theorem act_line_congr (codec : LitCodec) (env : Env) (a : ClassAct) (p q : Proc) (h : p.line = q.line) :
    (a.run codec env p).line = (a.run codec env q).line := by
  cases a with
  | new cls dct text => cases cls <;> simp [ClassAct.run, RuleClass.new, h]
  | isValid cls dct text =>
    cases cls <;> simp [ClassAct.run, RuleClass.isValid, RuleClass.parser, h]
  | act a =>
    cases a <;> simp [ClassAct.run, TextAct.run, Proc.rule, Proc.isValid, Proc.evaluate, h]

/-- what has been made: the statement, or the exception -/
def Made.statement (m : Made) : Except Err Expr :=
  match m.out with
  | .ok r => .ok r.statement
  | .error e => .error e

theorem new_statement (codec : LitCodec) (env : Env) (dct : DecCtx) (cls : RuleClass) (text : String)
    (p : Proc) (h : p.st.scopes = []) :
    (cls.new codec env dct text p).statement = (Proc.new.rule codec env dct text).1 := by
  have key : ∀ line, (parseRule codec env dct line text p.st).1 = (Proc.new.rule codec env dct text).1 :=
    fun line => parseRule_outcome codec env dct line _ text _ _ h
  have hs : ∀ line, (cls.new codec env dct text { p with line := p.line }).statement =
      (parseRule codec env dct line text p.st).1 := by
    intro line
    rw [key line]
    cases cls with
    | rule =>
      rw [← key p.line]
      simp only [RuleClass.new, Made.statement]
      rcases (parseRule codec env dct p.line text p.st) with ⟨_ | _, _⟩ <;> rfl
    | debugRule =>
      rw [← key 1]
      simp only [RuleClass.new, Made.statement]
      rcases (parseRule codec env dct 1 text p.st) with ⟨_ | _, _⟩ <;> rfl
  exact (hs 1).trans (key 1)

/-- **C78.** After any history, `Rule(text)` and `DebugRule(text)` make the same statement or raise the same
exception, which is what `Rule(text)` does in a new process. -/
theorem classes_agree (codec : LitCodec) (env : Env) (acts : List ClassAct) (dct : DecCtx)
    (cls : RuleClass) (text : String) :
    (cls.new codec env dct text (runClasses codec env acts Proc.new)).statement =
      (Proc.new.rule codec env dct text).1 :=
  new_statement codec env dct cls text _ (runClasses_scopes codec env acts)

/-- **C78.** So the two rule objects return or raise the same for every thing, each whenever it is asked. -/
theorem classes_evaluate_alike (codec : LitCodec) (env : Env) (acts acts' before before' : List ClassAct)
    (dct : DecCtx) (text : String) (r d : RuleObj)
    (hr : (RuleClass.rule.new codec env dct text (runClasses codec env acts Proc.new)).out = .ok r)
    (hd : (RuleClass.debugRule.new codec env dct text (runClasses codec env acts' Proc.new)).out = .ok d)
    (thing : Value) :
    (r.evaluate env thing (runClasses codec env before Proc.new)).1 =
      (d.evaluate env thing (runClasses codec env before' Proc.new)).1 := by
  have h1 := classes_agree codec env acts dct .rule text
  have h2 := classes_agree codec env acts' dct .debugRule text
  simp only [Made.statement, hr] at h1
  simp only [Made.statement, hd] at h2
  have : r.statement = d.statement := Except.ok.inj (h1.trans h2.symm)
  simp only [RuleObj.evaluate, this]
  exact (ruleEval_state_independent env d.statement thing _ _).1

/-- **C78.** Whatever was parsed before, `DebugRule` reports a syntax error at its line and offset in the
text.  (For `Rule` this is false: `error_line_depends_on_history`.) -/
theorem debug_error_exact (codec : LitCodec) (env : Env) (acts : List ClassAct) (dct : DecCtx)
    (text : String) (e : PErr) (l pos : Nat)
    (he : (RuleClass.debugRule.new codec env dct text (runClasses codec env acts Proc.new)).place = some e)
    (hp : e.place = some (l, pos)) :
    pos < text.toList.length ∧ l = lineOf text pos :=
  error_line_exact_partial codec [] (by simp) text e l pos he hp

/-- **C78.** What `DebugRule` does leaves no trace for the others: what `Rule(text)` makes or raises, and
the place it reports, is the same when everything done with `DebugRule` before is left out. -/
theorem debug_leaves_no_trace (codec : LitCodec) (env : Env) (acts : List ClassAct) (dct : DecCtx)
    (cls : RuleClass) (text : String) :
    let m := cls.new codec env dct text (runClasses codec env acts Proc.new)
    let m' := cls.new codec env dct text (runClasses codec env (acts.filter (!·.ofDebug)) Proc.new)
    m.out = m'.out ∧ m.place = m'.place ∧ m.proc.line = m'.proc.line := by
  have hl : ∀ (acts : List ClassAct) (p q : Proc), p.line = q.line →
      (runClasses codec env acts p).line = (runClasses codec env (acts.filter (!·.ofDebug)) q).line := by
    intro acts
    induction acts with
    | nil => intro p q h; exact h
    | cons a as ih =>
      intro p q h
      cases hd : a.ofDebug with
      | true =>
        simp only [List.filter_cons, hd, Bool.not_true, Bool.false_eq_true, if_false, runClasses,
          List.foldl_cons]
        exact ih _ _ ((act_line codec env a hd p).trans h)
      | false =>
        simp only [List.filter_cons, hd, Bool.not_false, if_true, runClasses, List.foldl_cons]
        exact ih _ _ (act_line_congr codec env a p q h)
  have h := hl acts Proc.new Proc.new rfl
  have hs1 := runClasses_scopes codec env acts
  have hs2 := runClasses_scopes codec env (acts.filter (!·.ofDebug))
  have ho : ∀ line, (parseRule codec env dct line text (runClasses codec env acts Proc.new).st).1 =
      (parseRule codec env dct line text (runClasses codec env (acts.filter (!·.ofDebug)) Proc.new).st).1 :=
    fun line => parseRule_outcome codec env dct line line text _ _ (hs1.trans hs2.symm)
  cases cls <;> simp only [RuleClass.new, h, ho, and_self]

/-- **C78.** The class method `DebugRule.is_valid` raises AttributeError for every text. -/
theorem debug_is_valid (codec : LitCodec) (env : Env) (acts : List ClassAct) (dct : DecCtx) (text : String) :
    (RuleClass.debugRule.isValid codec env dct text (runClasses codec env acts Proc.new)).1 =
      .error (.py .attributeError) := rfl

/-- **C78.** `str(rule)` is the text of the rule, and making a rule of it again gives the same rule: it
never raises, and the statement is the same, with either class and after any history. -/
theorem remade_from_str (codec : LitCodec) (env : Env) (acts acts' : List ClassAct) (dct : DecCtx)
    (cls cls' : RuleClass) (text : String) (r : RuleObj)
    (hr : (cls.new codec env dct text (runClasses codec env acts Proc.new)).out = .ok r) :
    r.str = text ∧ r.cls = cls ∧
    (cls'.new codec env dct r.str (runClasses codec env acts' Proc.new)).out = .ok { r with cls := cls' } := by
  have h1 := classes_agree codec env acts dct cls text
  have h2 := classes_agree codec env acts' dct cls' text
  have shape : ∀ (cls : RuleClass) (p : Proc) (r : RuleObj), (cls.new codec env dct text p).out = .ok r →
      r.text = text ∧ r.cls = cls := by
    intro cls p r h
    simp only [RuleClass.new] at h
    split at h
    · cases h; exact ⟨rfl, rfl⟩
    · cases h
  obtain ⟨ht, hc⟩ := shape cls _ r hr
  refine ⟨ht, hc, ?_⟩
  simp only [RuleObj.str, ht]
  simp only [Made.statement, hr] at h1
  cases h : (cls'.new codec env dct text (runClasses codec env acts' Proc.new)).out with
  | error e => simp only [Made.statement, h, ← h1] at h2; cases h2
  | ok r' =>
    obtain ⟨ht', hc'⟩ := shape cls' _ r' h
    simp only [Made.statement, h, ← h1] at h2
    obtain ⟨c, t, s⟩ := r
    obtain ⟨c', t', s'⟩ := r'
    simp only at ht hc ht' hc'
    cases Except.ok.inj h2
    subst ht hc ht' hc'
    rfl

/-- **C78**, a case: after the rule "1\n", `Rule("1 1")` reports line 2 and `DebugRule("1 1")` line 1, and
`DebugRule("1\n")` before does not count. -/
theorem debug_line_witness (env : Env) (dct : DecCtx) :
    let acts := [ClassAct.act (.elsewhere "1\n")]
    let acts' := [ClassAct.new .debugRule dct "1\n"]
    ((RuleClass.rule.new plainCodec env dct "1 1" (runClasses plainCodec env acts Proc.new)).place.map
      PErr.place) = some (some (2, 2)) ∧
    ((RuleClass.debugRule.new plainCodec env dct "1 1" (runClasses plainCodec env acts Proc.new)).place.map
      PErr.place) = some (some (1, 2)) ∧
    ((RuleClass.rule.new plainCodec env dct "1 1" (runClasses plainCodec env acts' Proc.new)).place.map
      PErr.place) = some (some (1, 2)) := by
  have h := error_line_depends_on_history
  exact ⟨h.2, h.1, h.1⟩

/-- the hypotheses of `classes_evaluate_alike` and `remade_from_str` are met: both classes make `x` into a
rule, after any histories -/
example (codec : LitCodec) (acts acts' : List ClassAct) (dct : DecCtx) : ∃ r d,
    (RuleClass.rule.new codec sampleEnv dct (String.ofList ['x']) (runClasses codec sampleEnv acts Proc.new)).out
      = .ok r ∧
    (RuleClass.debugRule.new codec sampleEnv dct (String.ofList ['x'])
      (runClasses codec sampleEnv acts' Proc.new)).out = .ok d := by
  have hx : Means codec ['x'] (.sym "x" false) := means_sym x_word
  have h0 : ∃ e, (Proc.new.rule codec sampleEnv dct (String.ofList ['x'])).1 = .ok e :=
    ⟨_, (rule_of_means hx).trans rfl⟩
  obtain ⟨e, he⟩ := h0
  have key : ∀ cls acts, ∃ r, (RuleClass.new codec sampleEnv dct cls (String.ofList ['x'])
      (runClasses codec sampleEnv acts Proc.new)).out = .ok r := by
    intro cls acts
    have h := classes_agree codec sampleEnv acts dct cls (String.ofList ['x'])
    rw [he, Made.statement] at h
    cases ho : (RuleClass.new codec sampleEnv dct cls (String.ofList ['x'])
        (runClasses codec sampleEnv acts Proc.new)).out with
    | ok r => exact ⟨r, rfl⟩
    | error _ => rw [ho] at h; cases h
  obtain ⟨r, hr⟩ := key .rule acts
  obtain ⟨d, hd⟩ := key .debugRule acts'
  exact ⟨r, d, hr, hd⟩

end RE
