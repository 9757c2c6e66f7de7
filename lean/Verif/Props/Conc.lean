import Verif.Model.Conc
import Verif.Props.State

/-!
# Threads (C18, C42)
-/

set_option linter.unusedSimpArgs false
set_option linter.unnecessarySeqFocus false

namespace RE

/-! ## Evaluations and constructions are programs -/

namespace Prog

theorem run_bind {α β : Type} (p : Prog α) (f : α → Prog β) :
    (p.bind f).run = (p.run >>= fun a => (f a).run) := by
  funext s
  induction p generalizing s with
  | done r => cases r <;> rfl
  | readScopes k ih => exact ih _ _
  | push a k ih => exact ih _
  | pop k ih => exact ih _
  | readGroups k ih => exact ih _ _
  | setGroups g k ih => exact ih _
  | reset k ih => exact ih _
  | addSymbol n k ih => exact ih _
  | extern e k ih => exact ih _

theorem run_attempt {α β : Type} (p : Prog α) (f : Except Err α → Prog β) (s : St) :
    (p.attempt f).run s = (f (p.run s).1).run (p.run s).2 := by
  induction p generalizing s with
  | done r => rfl
  | readScopes k ih => exact ih _ _
  | push a k ih => exact ih _
  | pop k ih => exact ih _
  | readGroups k ih => exact ih _ _
  | setGroups g k ih => exact ih _
  | reset k ih => exact ih _
  | addSymbol n k ih => exact ih _
  | extern e k ih => exact ih _

end Prog

/-- `m` is the behaviour of a program -/
def Programmed {α : Type} (m : M α) : Prop := ∃ p : Prog α, p.run = m

theorem programmed_closed : UnClosed @Programmed where
  lift x := ⟨.done x, rfl⟩
  bind := by
    rintro α β m f ⟨p, rfl⟩ hf
    refine ⟨p.bind fun a => (hf a).choose, ?_⟩
    rw [Prog.run_bind]
    congr 1
    funext a
    exact (hf a).choose_spec
  withScope := by
    rintro α a m ⟨p, rfl⟩
    refine ⟨.push a (p.attempt fun r => .pop (.done r)), ?_⟩
    funext s
    simp only [Prog.run, Prog.run_attempt, M.withScope]
  setGroups g _ := ⟨.setGroups g (.done (.ok ())), rfl⟩
  logCall f args α x := ⟨.extern (.call f args) (.done x), rfl⟩
  rethrow := by
    rintro α e m ⟨p, rfl⟩
    refine ⟨p.attempt fun r => .done (match r with | .ok a => .ok a | .error _ => .error e), ?_⟩
    funext s
    simp only [Prog.run_attempt, Prog.run, M.catchErr]
    rcases p.run s with ⟨_ | _, _⟩ <;> rfl

theorem ctxResolve_programmed (env : Env) (thing : Value) (name : String) (b : Bool) :
    Programmed (ctxResolve env thing name b) := by
  cases b with
  | true =>
    refine ⟨.readGroups fun g => .done (match builtinValue env g name with
      | some v => .ok v | none => .error (.eng (.symbolResolution name))), ?_⟩
    funext s
    simp only [Prog.run, ctxResolve, if_true]
    cases builtinValue env s.groups name <;> rfl
  | false =>
    refine ⟨.readScopes fun sc => match scopeLookup sc name with
      | some a => .done (.ok a.value)
      | none => .extern (.resolve thing name) (.done (env.resolver thing name)), ?_⟩
    funext s
    simp only [Prog.run, ctxResolve, Bool.false_eq_true, if_false]
    cases scopeLookup s.scopes name <;> rfl

theorem programmed_catch {α : Type} {m : M α} {h : Err → M α} (hm : Programmed m)
    (hh : ∀ e, Programmed (h e)) : Programmed (M.catchErr m h) := by
  obtain ⟨p, rfl⟩ := hm
  refine ⟨p.attempt fun r => match r with
    | .ok a => .done (.ok a)
    | .error e => (hh e).choose, ?_⟩
  funext s
  simp only [Prog.run_attempt, M.catchErr]
  rcases p.run s with ⟨e | a, s'⟩
  · exact congrFun (hh e).choose_spec s'
  · rfl

theorem evalSymbol_programmed (env : Env) (thing : Value) (name : String) (rt : DataType) (b : Bool) :
    Programmed (evalSymbol env thing name rt b) := by
  refine programmed_closed.bind (programmed_catch (ctxResolve_programmed env thing name b) fun e => ?_)
    fun v => programmed_closed.lift _
  split
  · exact programmed_closed.lift (.ok _)
  · exact programmed_closed.lift (.error _)

theorem evalGetAttr_programmed (env : Env) (o : Value) (name : String) :
    Programmed (evalGetAttr env o name) := by
  cases hr : resolveAttr env o name with
  | ok v => exact ⟨.done (.ok (newValue env v)), by funext s; simp [evalGetAttr, hr, Prog.run]⟩
  | error e =>
    cases hi : isAttrErr e with
    | false => exact ⟨.done (.error e), by funext s; simp [evalGetAttr, hr, hi, Prog.run]⟩
    | true =>
      obtain ⟨p, hp⟩ := ctxResolve_programmed env o name false
      refine ⟨p.attempt fun r => .done (match r with
        | .ok v => .ok (newValue env v)
        | .error e' => if isSymErr e' then
            (match env.defaultValue with | some d => .ok (newValue env d) | none => .error e)
          else .error e'), ?_⟩
      funext s
      simp only [Prog.run_attempt, Prog.run, hp, evalGetAttr, hr, hi, if_true]
      rcases ctxResolve env o name false s with ⟨e' | v, s'⟩
      · simp only
        split
        · cases env.defaultValue <;> rfl
        · rfl
      · rfl

theorem eval_programmed (env : Env) (dc : DecCtx) (thing : Value) (e : Expr) :
    Programmed (eval env dc thing e) :=
  eval_un programmed_closed dc (P := fun _ _ _ => True) (Q := fun _ => True)
    (fun n rt b _ => evalSymbol_programmed env thing n rt b)
    (fun o n _ => evalGetAttr_programmed env o n) e e.allNames_trivial

/-- Every evaluation of a rule is a sequence of atomic actions on the Context. -/
theorem evaluation_is_program (env : Env) (e : Expr) (thing : Value) :
    ∃ p : Prog Value, p.run = ruleEval env e thing := by
  obtain ⟨p, hp⟩ := eval_programmed env env.decCtx thing e
  exact ⟨.reset p, by funext s; simp only [Prog.run, hp, ruleEval]⟩

theorem mkSym_programmed (env : Env) (name : String) (b : Bool) : Programmed (mkSym env name b) := by
  refine programmed_closed.bind ⟨.addSymbol name (.done (.ok ())), rfl⟩ fun _ =>
    programmed_closed.bind ?_ fun t => programmed_closed.lift (.ok _)
  cases b with
  | true => exact ⟨.done (.ok (builtinType name)), rfl⟩
  | false =>
    refine ⟨.readScopes fun sc => .done (match scopeLookup sc name with
      | some a => .ok a.type | none => env.typeResolver name), ?_⟩
    funext s
    simp only [Prog.run, ctxResolveType, Bool.false_eq_true, if_false]
    cases scopeLookup s.scopes name <;> rfl

/-- And so is the building of the nodes of a rule. -/
theorem construction_is_program (env : Env) (dct : DecCtx) (raw : Raw) :
    ∃ p : Prog Expr, p.run = construct env dct raw :=
  build_un programmed_closed dct (fun e _ => eval_programmed env dct .none e) (mkSym_programmed env) raw

/-! ## Interleaving -/

/-- the state of the Context as thread `t` sees it -/
def Shared.view (w : Shared) (t : Nat) : St :=
  ⟨(w.tls t).scopes, (w.tls t).groups, w.symbols, (w.tls t).log⟩

/-- two states that differ at most in `Context.symbols` -/
def St.Same (s s' : St) : Prop := s.scopes = s'.scopes ∧ s.groups = s'.groups ∧ s.log = s'.log

theorem run_same {α : Type} (p : Prog α) {s s' : St} (h : s.Same s') :
    (p.run s).1 = (p.run s').1 ∧ (p.run s).2.Same (p.run s').2 := by
  obtain ⟨h1, h2, h3⟩ := h
  induction p generalizing s s' with
  | done r => exact ⟨rfl, h1, h2, h3⟩
  | readScopes k ih => simp only [Prog.run]; rw [h1]; exact ih _ h1 h2 h3
  | push a k ih => exact ih (by simp [h1]) h2 h3
  | pop k ih => exact ih (by simp [h1]) h2 h3
  | readGroups k ih => simp only [Prog.run]; rw [h2]; exact ih _ h1 h2 h3
  | setGroups g k ih => exact ih h1 rfl (by simp [h3])
  | reset k ih => exact ih rfl rfl h3
  | addSymbol n k ih => exact ih h1 h2 h3
  | extern e k ih => exact ih h1 h2 (by simp [h3])

theorem tls_setTls (w : Shared) (t u : Nat) (c : Cell) :
    (w.setTls t c).tls u = if u = t then c else w.tls u := by
  simp only [Shared.tls, Shared.setTls]
  split <;> rfl

/-- a step of another thread changes nothing but `Context.symbols` for this one -/
theorem step_other {α : Type} (p : Prog α) (t u : Nat) (w : Shared) (h : u ≠ t) :
    ((p.step t w).1.view u).Same (w.view u) := by
  cases p <;> simp [Prog.step, Shared.view, St.Same, tls_setTls, h] <;> simp [Shared.tls]

/-- a step of this thread is the first step of its program -/
theorem step_self {α : Type} (p : Prog α) (t : Nat) (w : Shared) :
    (p.step t w).2.run ((p.step t w).1.view t) = p.run (w.view t) := by
  cases p <;> simp [Prog.step, Shared.view, Prog.run, tls_setTls, St.reset] <;> simp [Shared.tls, Shared.setTls]

/-- how many steps a program takes on its own -/
def Prog.length {α : Type} : Prog α → St → Nat
  | .done _, _ => 0
  | .readScopes k, s => (k s.scopes).length s + 1
  | .push a k, s => k.length { s with scopes := s.scopes ++ [a] } + 1
  | .pop k, s => k.length { s with scopes := s.scopes.dropLast } + 1
  | .readGroups k, s => (k s.groups).length s + 1
  | .setGroups g k, s => k.length { s with groups := g, log := s.log ++ [.matched g] } + 1
  | .reset k, s => k.length s.reset + 1
  | .addSymbol n k, s => k.length { s with symbols := n :: s.symbols } + 1
  | .extern e k, s => k.length { s with log := s.log ++ [e] } + 1

theorem length_same {α : Type} (p : Prog α) {s s' : St} (h : s.Same s') : p.length s = p.length s' := by
  obtain ⟨h1, h2, h3⟩ := h
  induction p generalizing s s' with
  | done r => rfl
  | readScopes k ih => simp only [Prog.length]; rw [h1]; exact congrArg (· + 1) (ih _ h1 h2 h3)
  | push a k ih => exact congrArg (· + 1) (ih (by simp [h1]) h2 h3)
  | pop k ih => exact congrArg (· + 1) (ih (by simp [h1]) h2 h3)
  | readGroups k ih => simp only [Prog.length]; rw [h2]; exact congrArg (· + 1) (ih _ h1 h2 h3)
  | setGroups g k ih => exact congrArg (· + 1) (ih h1 rfl (by simp [h3]))
  | reset k ih => exact congrArg (· + 1) (ih rfl rfl h3)
  | addSymbol n k ih => exact congrArg (· + 1) (ih h1 h2 h3)
  | extern e k ih => exact congrArg (· + 1) (ih h1 h2 (by simp [h3]))

theorem length_step {α : Type} (p : Prog α) (t : Nat) (w : Shared) :
    (p.step t w).2.length ((p.step t w).1.view t) = p.length (w.view t) - 1 := by
  cases p <;> simp [Prog.step, Shared.view, Prog.length, tls_setTls, St.reset] <;>
    simp [Shared.tls, Shared.setTls]

/-- what thread `t` is going to do, if it runs on its own from now on -/
theorem exec_invariant {α : Type} (schedule : List Nat) (w : Shared) (pool : Pool α) (t : Nat) :
    (((Pool.exec (w, pool) schedule).2 t).run ((Pool.exec (w, pool) schedule).1.view t)).1 =
      ((pool t).run (w.view t)).1 ∧
    St.Same (((Pool.exec (w, pool) schedule).2 t).run ((Pool.exec (w, pool) schedule).1.view t)).2
      ((pool t).run (w.view t)).2 ∧
    ((Pool.exec (w, pool) schedule).2 t).length ((Pool.exec (w, pool) schedule).1.view t) =
      (pool t).length (w.view t) - schedule.count t := by
  induction schedule generalizing w pool with
  | nil => exact ⟨rfl, ⟨rfl, rfl, rfl⟩, rfl⟩
  | cons u rest ih =>
    have hexec : Pool.exec (w, pool) (u :: rest) = Pool.exec (Pool.step (w, pool) u) rest := rfl
    rw [hexec]
    obtain ⟨h1, h2, h3⟩ := ih (Pool.step (w, pool) u).1 (Pool.step (w, pool) u).2
    by_cases hu : u = t
    · subst hu
      have hr : ((Pool.step (w, pool) u).2 u).run ((Pool.step (w, pool) u).1.view u) =
          (pool u).run (w.view u) := by
        simp only [Pool.step, if_true]
        exact step_self (pool u) u w
      have hl : ((Pool.step (w, pool) u).2 u).length ((Pool.step (w, pool) u).1.view u) =
          (pool u).length (w.view u) - 1 := by
        simp only [Pool.step, if_true]
        exact length_step (pool u) u w
      rw [hr] at h1 h2
      rw [hl] at h3
      refine ⟨h1, h2, h3.trans ?_⟩
      rw [List.count_cons_self]
      omega
    · have hp : (Pool.step (w, pool) u).2 t = pool t := by
        simp only [Pool.step, if_neg (Ne.symm hu)]
      have hs : St.Same ((Pool.step (w, pool) u).1.view t) (w.view t) := by
        simp only [Pool.step]
        exact step_other (pool u) u t w (Ne.symm hu)
      rw [hp] at h1 h2 h3
      have := run_same (pool t) hs
      refine ⟨h1.trans this.1, ?_, ?_⟩
      · exact ⟨h2.1.trans this.2.1, h2.2.1.trans this.2.2.1, h2.2.2.trans this.2.2.2⟩
      · rw [h3, length_same _ hs, List.count_cons_of_ne (fun h => hu h)]

/-- **C18** for any programs over a shared Context: under every schedule, a thread that has finished has
the outcome, and has made the external calls in the order, that it has when it runs alone. -/
theorem threads_isolated {α : Type} (pool : Pool α) (schedule : List Nat) (t : Nat)
    (r : Except Err α) (h : (Pool.exec (Shared.new, pool) schedule).2 t = .done r) :
    r = ((pool t).run St.init).1 ∧
    ((Pool.exec (Shared.new, pool) schedule).1.tls t).log = ((pool t).run St.init).2.log := by
  have := exec_invariant schedule Shared.new pool t
  rw [h] at this
  exact ⟨this.1, this.2.1.2.2⟩

theorem length_zero {α : Type} {p : Prog α} {s : St} (h : p.length s = 0) : ∃ r, p = .done r := by
  cases p <;> simp [Prog.length] at h
  exact ⟨_, rfl⟩

/-- No thread waits for another: after as many steps of its own as it takes alone, it has finished. -/
theorem threads_finish {α : Type} (pool : Pool α) (schedule : List Nat) (t : Nat)
    (h : (pool t).length St.init ≤ schedule.count t) :
    (Pool.exec (Shared.new, pool) schedule).2 t = .done ((pool t).run St.init).1 := by
  have hi := exec_invariant schedule Shared.new pool t
  have h0 : Shared.new.view t = St.init := rfl
  rw [h0] at hi
  obtain ⟨r, hr⟩ := length_zero (hi.2.2.trans (by omega))
  rw [hr] at hi ⊢
  rw [← hi.1]
  rfl

/-! ## Rules in threads -/

/-- Something a thread does with the shared Context: evaluate a rule, or construct one (from the parse
tree, in a thread with the decimal context `dct`). -/
inductive Job where
  | evaluate (e : Expr) (thing : Value)
  | construct (dct : DecCtx) (raw : Raw)

/-- its behaviour: evaluations give a value, constructions a rule -/
def Job.behaviour (env : Env) : Job → M (Value ⊕ Expr)
  | .evaluate e thing => do
    let v ← ruleEval env e thing
    pure (.inl v)
  | .construct dct raw => do
    let e ← RE.construct env dct raw
    pure (.inr e)

/-- what it returns or raises in a program with a single thread that does nothing else -/
def Job.alone (env : Env) (j : Job) : Except Err (Value ⊕ Expr) := (j.behaviour env St.init).1

/-- `p` implements the job by atomic actions on the Context -/
def Job.Impl (env : Env) (j : Job) (p : Prog (Value ⊕ Expr)) : Prop := p.run = j.behaviour env

theorem job_implementable (env : Env) (j : Job) : ∃ p, j.Impl env p := by
  cases j with
  | evaluate e thing =>
    obtain ⟨p, hp⟩ := evaluation_is_program env e thing
    refine ⟨p.bind fun v => .done (.ok (.inl v)), ?_⟩
    rw [Job.Impl, Prog.run_bind, hp]; rfl
  | construct dct raw =>
    obtain ⟨p, hp⟩ := construction_is_program env dct raw
    refine ⟨p.bind fun v => .done (.ok (.inr v)), ?_⟩
    rw [Job.Impl, Prog.run_bind, hp]; rfl

theorem job_outcome (env : Env) (j : Job) (s : St) (hs : s.scopes = []) :
    (j.behaviour env s).1 = j.alone env ∧ (j.behaviour env s).2.scopes = [] := by
  cases j with
  | evaluate e thing =>
    have h1 := (ruleEval_state_independent env e thing s St.init).1
    have h2 := ruleEval_scopes env e thing s
    simp only [Job.behaviour, Job.alone, M.bind_apply]
    rcases h : ruleEval env e thing s with ⟨x, s'⟩
    rcases h' : ruleEval env e thing St.init with ⟨x', s''⟩
    rw [h, h'] at h1
    rw [h] at h2
    cases h1
    cases x <;> exact ⟨rfl, h2⟩
  | construct dct raw =>
    obtain ⟨x, sy', l, h⟩ := construct_framed2 env dct raw []
    obtain ⟨sc, g, sy, lg⟩ := s
    simp only at hs
    subst hs
    simp only [Job.behaviour, Job.alone, M.bind_apply, h g sy lg,
      show St.init = ⟨[], .none, [], []⟩ from rfl, h .none [] []]
    cases x <;> exact ⟨rfl, rfl⟩

theorem session_outcome (env : Env) : ∀ (jobs : List Job) (ps : List (Prog (Value ⊕ Expr))),
    List.Forall₂ (Job.Impl env) jobs ps → ∀ s : St, s.scopes = [] →
    ((Prog.session ps).run s).1 = .ok (jobs.map (Job.alone env))
  | [], _, .nil, s, _ => rfl
  | j :: jobs, p :: ps, .cons hp hps, s, hs => by
    obtain ⟨h1, h2⟩ := job_outcome env j s hs
    have ih := session_outcome env jobs ps hps (j.behaviour env s).2 h2
    simp only [Prog.session, Prog.run_attempt, show p.run = _ from hp, Prog.run_bind, h1, M.bind_apply,
      List.map_cons]
    rcases h : (Prog.session ps).run (j.behaviour env s).2 with ⟨x, s'⟩
    rw [h] at ih
    simp only at ih
    subst ih
    rfl

/-- **C18.** Any number of threads use one Context; thread `t` performs the jobs `jobs t` one after the
other, each implemented (`progs t`) by atomic actions on the Context in whatever way.  Under every
schedule, when a thread has finished, the outcomes of its jobs are exactly those that each of them
has alone in a fresh process. -/
theorem concurrent_evaluations_isolated (env : Env) (jobs : Nat → List Job)
    (progs : Nat → List (Prog (Value ⊕ Expr)))
    (himpl : ∀ t, List.Forall₂ (Job.Impl env) (jobs t) (progs t)) (schedule : List Nat) (t : Nat)
    (r : Except Err (List (Except Err (Value ⊕ Expr))))
    (h : (Pool.exec (Shared.new, fun t => Prog.session (progs t)) schedule).2 t = .done r) :
    r = .ok ((jobs t).map (Job.alone env)) := by
  rw [(threads_isolated _ schedule t r h).1]
  exact session_outcome env (jobs t) (progs t) (himpl t) St.init rfl

/-- **C18.** Such implementations exist for all jobs, and every thread finishes under every schedule that
gives it enough steps, however the steps of the other threads are placed between them. -/
theorem concurrent_evaluations_finish (env : Env) (jobs : Nat → List Job) :
    ∃ (progs : Nat → List (Prog (Value ⊕ Expr))) (steps : Nat → Nat),
      (∀ t, List.Forall₂ (Job.Impl env) (jobs t) (progs t)) ∧
      ∀ (schedule : List Nat) (t : Nat), steps t ≤ schedule.count t →
        (Pool.exec (Shared.new, fun t => Prog.session (progs t)) schedule).2 t =
          .done (.ok ((jobs t).map (Job.alone env))) := by
  have hex : ∀ js : List Job, ∃ ps, List.Forall₂ (Job.Impl env) js ps := by
    intro js
    induction js with
    | nil => exact ⟨[], .nil⟩
    | cons j js ih =>
      obtain ⟨ps, hps⟩ := ih
      obtain ⟨p, hp⟩ := job_implementable env j
      exact ⟨p :: ps, .cons hp hps⟩
  refine ⟨fun t => (hex (jobs t)).choose,
    fun t => (Prog.session (hex (jobs t)).choose).length St.init, fun t => (hex (jobs t)).choose_spec, ?_⟩
  intro schedule t hst
  rw [threads_finish _ schedule t hst,
    session_outcome env (jobs t) _ (hex (jobs t)).choose_spec St.init rfl]

/-- Two threads evaluate `"ab" =~ "a"`-like matches and read `$re_groups`, with interleaved steps: each
reads the groups of its own match. -/
example :
    let prog (g : Value) : Prog Value := .reset (.setGroups g (.readGroups fun x => .done (.ok x)))
    let c := Pool.exec (Shared.new, fun t => prog (.str (if t = 0 then "a" else "b"))) [0, 1, 1, 0, 1, 0]
    c.2 0 = .done (.ok (.str "a")) ∧ c.2 1 = .done (.ok (.str "b")) := ⟨rfl, rfl⟩

/-! ## C42 — the parser lock -/

/-- the thread is inside the block guarded by the lock -/
def ParsePhase.inside : ParsePhase → Bool
  | .entered .. | .parsing .. | .leaving .. => true
  | _ => false

/-- the context the thread constructs a rule for -/
def ParsePhase.ctx : ParsePhase → Nat
  | .waiting c _ | .entered c _ | .parsing c _ _ | .leaving c _ _ | .left c _ _ => c

/-- the nodes made so far, with the contexts they refer to -/
def ParsePhase.made : ParsePhase → List (Nat × Option Nat)
  | .parsing _ _ m | .leaving _ m _ | .left _ m _ => m
  | _ => []

/-- invariant of the lock -/
structure Locked (c : ParserObj × ParsePool) : Prop where
  holder : ∀ t, (c.2 t).inside = true ↔ c.1.holder = some t
  context : ∀ t x rest made, c.2 t = .parsing x rest made → c.1.context = some x
  nodes : ∀ t, ∀ n ∈ (c.2 t).made, n.2 = some (c.2 t).ctx

theorem locked_step {c : ParserObj × ParsePool} (h : Locked c) (t : Nat) : Locked (ParsePool.step c t) := by
  obtain ⟨p, pool⟩ := c
  obtain ⟨h1, h2, h3⟩ := h
  simp only at h1 h2 h3
  have key : ∀ (p' : ParserObj) (ph : ParsePhase), (pool t).step t p = (p', ph) →
      (∀ u, (if u = t then ph else pool u).inside = true ↔ p'.holder = some u) →
      (∀ u x rest made, (if u = t then ph else pool u) = .parsing x rest made → p'.context = some x) →
      (∀ n ∈ ph.made, n.2 = some ph.ctx) → Locked (ParsePool.step (p, pool) t) := by
    intro p' ph hst a b d
    refine ⟨?_, ?_, ?_⟩
    · intro u; simp only [ParsePool.step, hst]; exact a u
    · intro u x rest made hx
      simp only [ParsePool.step, hst] at hx ⊢
      exact b u x rest made hx
    · intro u n hn
      simp only [ParsePool.step, hst] at hn ⊢
      split
      · rename_i e; rw [if_pos e] at hn; exact d n hn
      · rename_i e; rw [if_neg e] at hn; exact h3 u n hn
  -- if `t` is inside, nobody else is
  have excl : (pool t).inside = true → ∀ u, u ≠ t → (pool u).inside = false := by
    intro hi u hu
    by_contra hc
    simp only [Bool.not_eq_false] at hc
    have := ((h1 t).1 hi).symm.trans ((h1 u).1 hc)
    exact hu (by simpa using this.symm)
  have hnodes := h3 t
  cases hph : pool t with
  | waiting ctx rest =>
    cases hh : p.holder with
    | some x =>
      refine key p (.waiting ctx rest) (by simp [ParsePhase.step, hph, hh]) ?_ ?_ (by simp [ParsePhase.made])
      · intro u
        have := h1 u
        split
        · rename_i e; subst e; rwa [hph] at this
        · exact this
      · intro u x rest made hx
        split at hx
        · cases hx
        · exact h2 u x rest made hx
    | none =>
      refine key { p with holder := some t } (.entered ctx rest) (by simp [ParsePhase.step, hph, hh]) ?_ ?_
        (by simp [ParsePhase.made])
      · intro u
        have hu := h1 u
        rw [hh] at hu
        split
        · rename_i e; subst e; simp [ParsePhase.inside]
        · rename_i e
          constructor
          · intro hin; have := hu.1 hin; cases this
          · intro hc; exact absurd (Option.some.inj hc).symm e
      · intro u x rest made hx
        split at hx
        · cases hx
        · exact h2 u x rest made hx
  | entered ctx rest =>
    have hi : (pool t).inside = true := by rw [hph]; rfl
    refine key { p with context := some ctx } (.parsing ctx rest []) (by simp [ParsePhase.step, hph]) ?_ ?_
      (by simp [ParsePhase.made])
    · intro u
      have hu := h1 u
      split
      · rename_i e; subst e; rw [hph] at hu; simpa [ParsePhase.inside] using hu
      · exact hu
    · intro u x rest' made hx
      split at hx
      · cases hx; rfl
      · rename_i e
        have := excl hi u e
        rw [hx] at this; cases this
  | parsing ctx rest made =>
    have hi : (pool t).inside = true := by rw [hph]; rfl
    have hctx := h2 t ctx rest made hph
    rw [hph] at hnodes
    cases rest with
    | nil =>
      refine key { p with context := none } (.leaving ctx made false) (by simp [ParsePhase.step, hph]) ?_ ?_ hnodes
      · intro u
        have hu := h1 u
        split
        · rename_i e; subst e; rw [hph] at hu; simpa [ParsePhase.inside] using hu
        · exact hu
      · intro u x rest' made' hx
        split at hx
        · cases hx
        · rename_i e
          have := excl hi u e
          rw [hx] at this; cases this
    | cons n rest =>
      cases n with
      | none =>
        refine key p (.leaving ctx made true) (by simp [ParsePhase.step, hph]) ?_ ?_ hnodes
        · intro u
          have hu := h1 u
          split
          · rename_i e; subst e; rw [hph] at hu; simpa [ParsePhase.inside] using hu
          · exact hu
        · intro u x rest' made' hx
          split at hx
          · cases hx
          · exact h2 u x rest' made' hx
      | some n =>
        refine key p (.parsing ctx rest (made ++ [(n, p.context)])) (by simp [ParsePhase.step, hph]) ?_ ?_ ?_
        · intro u
          have hu := h1 u
          split
          · rename_i e; subst e; rw [hph] at hu; simpa [ParsePhase.inside] using hu
          · exact hu
        · intro u x rest' made' hx
          split at hx
          · cases hx; exact hctx
          · exact h2 u x rest' made' hx
        · intro m hm
          simp only [ParsePhase.made, List.mem_append, List.mem_singleton] at hm
          rcases hm with hm | rfl
          · exact hnodes m hm
          · exact hctx
  | leaving ctx made failed =>
    have hi : (pool t).inside = true := by rw [hph]; rfl
    rw [hph] at hnodes
    refine key { p with holder := none } (.left ctx made failed) (by simp [ParsePhase.step, hph]) ?_ ?_ hnodes
    · intro u
      split
      · simp [ParsePhase.inside]
      · rename_i e
        simp [excl hi u e]
    · intro u x rest' made' hx
      split at hx
      · cases hx
      · rename_i e
        have := excl hi u e
        rw [hx] at this; cases this
  | left ctx made failed =>
    rw [hph] at hnodes
    refine key p (.left ctx made failed) (by simp [ParsePhase.step, hph]) ?_ ?_ hnodes
    · intro u
      have hu := h1 u
      split
      · rename_i e; subst e; rwa [hph] at hu
      · exact hu
    · intro u x rest' made' hx
      split at hx
      · cases hx
      · exact h2 u x rest' made' hx

/-- every thread is about to construct a rule; the parser may have been used before -/
def ParsePool.fresh (ctxs : Nat → Nat) (texts : Nat → List (Option Nat)) : ParsePool :=
  fun t => .waiting (ctxs t) (texts t)

theorem locked_exec (ctxs : Nat → Nat) (texts : Nat → List (Option Nat)) (left : Option Nat)
    (schedule : List Nat) :
    Locked (ParsePool.exec (⟨none, left⟩, ParsePool.fresh ctxs texts) schedule) := by
  have h0 : Locked (⟨none, left⟩, ParsePool.fresh ctxs texts) := by
    refine ⟨?_, ?_, ?_⟩
    · intro t; simp [ParsePool.fresh, ParsePhase.inside]
    · intro t x rest made h; simp [ParsePool.fresh] at h
    · intro t n hn; simp [ParsePool.fresh, ParsePhase.made] at hn
  unfold ParsePool.exec
  generalize ((⟨none, left⟩, ParsePool.fresh ctxs texts) : ParserObj × ParsePool) = c at h0
  induction schedule generalizing c with
  | nil => exact h0
  | cons t rest ih => exact ih _ (locked_step h0 t)

theorem step_ctx (t : Nat) (p : ParserObj) (ph : ParsePhase) : (ph.step t p).2.ctx = ph.ctx := by
  unfold ParsePhase.step
  split <;> first | rfl | (split <;> rfl)

theorem exec_ctx (c : ParserObj × ParsePool) (schedule : List Nat) (t : Nat) :
    ((ParsePool.exec c schedule).2 t).ctx = (c.2 t).ctx := by
  induction schedule generalizing c with
  | nil => rfl
  | cons u rest ih =>
    have : ParsePool.exec c (u :: rest) = ParsePool.exec (ParsePool.step c u) rest := rfl
    rw [this, ih]
    simp only [ParsePool.step]
    split
    · rename_i e; rw [e]; exact step_ctx _ _ _
    · rfl

/-- **C42.** Any number of threads construct rules through the shared parser, thread `t` for the
context `ctxs t`, from texts with any grammar actions (some of which may raise), after any earlier use
of the parser (`left` is what that left in `parser.context`).  Under every schedule, every node that
thread `t` has made refers to `ctxs t`. -/
theorem nodes_bound_to_own_context (ctxs : Nat → Nat) (texts : Nat → List (Option Nat))
    (left : Option Nat) (schedule : List Nat) (t : Nat) (n : Nat × Option Nat)
    (hn : n ∈ ((ParsePool.exec (⟨none, left⟩, ParsePool.fresh ctxs texts) schedule).2 t).made) :
    n.2 = some (ctxs t) := by
  rw [(locked_exec ctxs texts left schedule).nodes t n hn, exec_ctx]
  rfl

/-- **C42.** At most one thread is parsing at a time. -/
theorem one_thread_parses (ctxs : Nat → Nat) (texts : Nat → List (Option Nat)) (left : Option Nat)
    (schedule : List Nat) (t u : Nat)
    (ht : ((ParsePool.exec (⟨none, left⟩, ParsePool.fresh ctxs texts) schedule).2 t).inside = true)
    (hu : ((ParsePool.exec (⟨none, left⟩, ParsePool.fresh ctxs texts) schedule).2 u).inside = true) :
    t = u := by
  have h := locked_exec ctxs texts left schedule
  have := ((h.holder t).1 ht).symm.trans ((h.holder u).1 hu)
  simpa using this

/-- what a thread makes of its text: the nodes up to the first grammar action that raises -/
def textNodes : List (Option Nat) → List Nat
  | some n :: rest => n :: textNodes rest
  | _ => []

/-- does a grammar action of the text raise? -/
def textFails (text : List (Option Nat)) : Bool := text.contains none

/-- a thread's progress against its text -/
def Progress (text : List (Option Nat)) : ParsePhase → Prop
  | .waiting _ rest | .entered _ rest => rest = text
  | .parsing _ rest made => made.map Prod.fst ++ textNodes rest = textNodes text ∧
      textFails rest = textFails text
  | .leaving _ made failed | .left _ made failed => made.map Prod.fst = textNodes text ∧
      failed = textFails text

theorem progress_step {text : List (Option Nat)} (t : Nat) (p : ParserObj) {ph : ParsePhase}
    (h : Progress text ph) : Progress text (ph.step t p).2 := by
  cases ph with
  | waiting ctx rest =>
    simp only [ParsePhase.step]
    split <;> exact h
  | entered ctx rest =>
    have h : rest = text := h
    subst h
    exact ⟨by simp, rfl⟩
  | parsing ctx rest made =>
    obtain ⟨h1, h2⟩ := h
    cases rest with
    | nil =>
      refine ⟨by simpa [textNodes] using h1, ?_⟩
      rw [← h2]; rfl
    | cons n rest =>
      cases n with
      | none =>
        refine ⟨by simpa [textNodes] using h1, ?_⟩
        rw [← h2]; simp [textFails]
      | some n =>
        refine ⟨by simpa [textNodes] using h1, ?_⟩
        rw [← h2]; simp [textFails]
  | leaving ctx made failed => exact h
  | left ctx made failed => exact h

/-- **C42.** A thread that has left the parser has made exactly the nodes of its own text, all bound to
its own context, and has failed exactly if its own text makes the parser fail. -/
theorem construction_result (ctxs : Nat → Nat) (texts : Nat → List (Option Nat)) (left : Option Nat)
    (schedule : List Nat) (t x : Nat) (made : List (Nat × Option Nat)) (failed : Bool)
    (h : (ParsePool.exec (⟨none, left⟩, ParsePool.fresh ctxs texts) schedule).2 t = .left x made failed) :
    made = (textNodes (texts t)).map (fun n => (n, some (ctxs t))) ∧ failed = textFails (texts t) := by
  have hp : ∀ (schedule : List Nat) (c : ParserObj × ParsePool), Progress (texts t) (c.2 t) →
      Progress (texts t) ((ParsePool.exec c schedule).2 t) := by
    intro schedule
    induction schedule with
    | nil => exact fun c h => h
    | cons u rest ih =>
      intro c hc
      refine ih (ParsePool.step c u) ?_
      simp only [ParsePool.step]
      split
      · rename_i e; subst e; exact progress_step _ _ hc
      · exact hc
  have := hp schedule (⟨none, left⟩, ParsePool.fresh ctxs texts) rfl
  rw [h] at this
  obtain ⟨h1, h2⟩ := this
  refine ⟨?_, h2⟩
  have hb := nodes_bound_to_own_context ctxs texts left schedule t
  rw [h] at hb
  rw [← h1, List.map_map]
  symm
  conv_rhs => rw [← List.map_id made]
  apply List.map_congr_left
  intro n hn
  exact Prod.ext rfl (hb n hn).symm

/-- Two threads with interleaved steps; the first one's text is malformed and leaves its context
behind in the parser. -/
example :
    let c := ParsePool.exec (⟨none, none⟩, ParsePool.fresh (fun t => 10 + t)
      (fun t => if t = 0 then [some 1, none] else [some 2, some 3])) [0, 1, 0, 1, 0, 0, 0, 1, 1, 1, 1, 1, 1]
    c.2 0 = .left 10 [(1, some 10)] true ∧ c.2 1 = .left 11 [(2, some 11), (3, some 11)] false := by
  decide +kernel

end RE
