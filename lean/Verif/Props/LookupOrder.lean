import Mathlib.Computability.Language
import Verif.Props.Locality
import Verif.Props.Reduced

/-!
# The order in which a rule asks, calls and matches (C67)

What a rule does to the outside while it is evaluated: asking the resolver for names, calling functions, recording regex
matches.  `Raw.order` gives, as a regular language, the orders in which this can happen for a rule as written.
-/

set_option linter.unusedSimpArgs false

open scoped Computability

namespace RE

/-! ### Specification -/

/-- something a rule does to the outside -/
inductive Step where
  /-- the resolver is asked for a name of the thing -/
  | name (n : String)
  /-- the resolver is asked for a name after a dot -/
  | attr (n : String)
  /-- a builtin symbol is read (which the log of an evaluation does not show, see `Model/World`) -/
  | read (n : String)
  /-- a function is called -/
  | call
  /-- a regular expression has matched -/
  | matched
  deriving DecidableEq, Repr

/-- an event of an evaluation for `thing` is such a step -/
def Event.Is (thing : Value) : Event → Step → Prop
  | .resolve o n, .name m => o = thing ∧ n = m
  | .resolve _ n, .attr m => n = m
  | .call f args, .read m => f = .str m ∧ args = []
  | .call .., .call => True
  | .matched _, .matched => True
  | _, _ => False

/-- the languages one after the other, in any order -/
def shuffle {α : Type} (ls : List (Language α)) : Language α := {p | ∃ ls' : List (Language α), ls'.Perm ls ∧ p ∈ ls'.prod}

mutual
/-- **Specification.** The steps of a rule, in the order in which they happen if nothing is skipped: operands from left
to right, then the operator; for `in` the container first; for a comprehension first the iterable, then for every member
the condition and then the result; for a mapping literal first the keys from left to right, then the values, each once;
for a call the function, the arguments, then the call (`$map` and `$filter` make further calls).  `vars` are the variables
of the comprehensions around it. -/
def Raw.order (vars : List String) : Raw → Language Step
  | .lit _ | .floatLit _ | .datetimeLit _ | .timedeltaLit _ => 1
  | .array xs => (Raw.orders vars xs).prod
  | .set xs => (Raw.orders vars xs).prod
  | .mapping kvs => (Raw.keyOrders vars kvs).prod * shuffle (Raw.valueOrders vars kvs)
  | .bin (.fuzzy ..) l r => l.order vars * (r.order vars * {[.matched]})
  | .bin _ l r => l.order vars * r.order vars
  | .comp result var iterable cond =>
    iterable.order vars * (cond.order (vars ++ [var]) * result.order (vars ++ [var]))∗
  | .contains c m => c.order vars * m.order vars
  | .getAttr o n _ => o.order vars * {[.attr n]}
  | .getItem c i _ => c.order vars * i.order vars
  | .getSlice c a b _ => c.order vars * (a.order vars * b.order vars)
  | .sym n b => if b then {[.read n]} else if n ∈ vars then 1 else {[.name n]}
  | .call f args => f.order vars * ((Raw.orders vars args).prod * {[.call]}∗)
  | .tern c t f => c.order vars * (t.order vars + f.order vars)
  | .not e => e.order vars
  | .neg e => e.order vars
/-- members -/
def Raw.orders (vars : List String) : List Raw → List (Language Step)
  | [] => []
  | x :: xs => x.order vars :: Raw.orders vars xs
/-- keys -/
def Raw.keyOrders (vars : List String) : List (Raw × Raw) → List (Language Step)
  | [] => []
  | (k, _) :: xs => k.order vars :: Raw.keyOrders vars xs
/-- values -/
def Raw.valueOrders (vars : List String) : List (Raw × Raw) → List (Language Step)
  | [] => []
  | (_, v) :: xs => v.order vars :: Raw.valueOrders vars xs
end

/-! ### Every rule has an order -/

theorem mem_mul_of {α : Type} {L L' : Language α} (h : ∃ p, p ∈ L) (h' : ∃ p, p ∈ L') : ∃ p, p ∈ L * L' := by
  obtain ⟨p, hp⟩ := h
  obtain ⟨q, hq⟩ := h'
  exact ⟨_, Language.append_mem_mul hp hq⟩

theorem prod_some {α : Type} : ∀ {ls : List (Language α)}, (∀ L ∈ ls, ∃ p, p ∈ L) → ∃ p, p ∈ ls.prod
  | [], _ => ⟨[], by simp [Language.mem_one]⟩
  | L :: ls, h => by
    rw [List.prod_cons]
    exact mem_mul_of (h L (by simp)) (prod_some fun L' h' => h L' (by simp [h']))

theorem single_some {α : Type} (a : List α) : ∃ p, p ∈ ({a} : Language α) := ⟨a, rfl⟩

theorem star_some {α : Type} (L : Language α) : ∃ p, p ∈ L∗ := ⟨[], Language.nil_mem_kstar L⟩

theorem shuffle_some {α : Type} {ls : List (Language α)} (h : ∀ L ∈ ls, ∃ p, p ∈ L) : ∃ p, p ∈ shuffle ls := by
  obtain ⟨p, hp⟩ := prod_some h
  exact ⟨p, ls, .refl _, hp⟩

mutual
theorem order_some : ∀ (raw : Raw) (vars : List String), ∃ p, p ∈ raw.order vars
  | .lit _, vars | .floatLit _, vars | .datetimeLit _, vars | .timedeltaLit _, vars => ⟨[], by
    simp [Raw.order, Language.mem_one]⟩
  | .array xs, vars | .set xs, vars => by
    simp only [Raw.order]; exact prod_some (orders_some xs vars)
  | .mapping kvs, vars => by
    simp only [Raw.order]
    exact mem_mul_of (prod_some (keyOrders_some kvs vars)) (shuffle_some (valueOrders_some kvs vars))
  | .bin op l r, vars => by
    cases op <;> simp only [Raw.order]
    case fuzzy =>
      exact mem_mul_of (order_some l vars) (mem_mul_of (order_some r vars) (single_some _))
    all_goals exact mem_mul_of (order_some l vars) (order_some r vars)
  | .comp _ _ it _, vars => by
    simp only [Raw.order]; exact mem_mul_of (order_some it vars) (star_some _)
  | .contains l r, vars | .getItem l r _, vars => by
    simp only [Raw.order]; exact mem_mul_of (order_some l vars) (order_some r vars)
  | .getAttr o _ _, vars => by
    simp only [Raw.order]; exact mem_mul_of (order_some o vars) (single_some _)
  | .getSlice c a b _, vars => by
    simp only [Raw.order]; exact mem_mul_of (order_some c vars) (mem_mul_of (order_some a vars) (order_some b vars))
  | .sym n b, vars => by
    simp only [Raw.order]
    split
    · exact single_some _
    split
    · exact ⟨[], by simp [Language.mem_one]⟩
    · exact single_some _
  | .call f args, vars => by
    simp only [Raw.order]
    exact mem_mul_of (order_some f vars) (mem_mul_of (prod_some (orders_some args vars)) (star_some _))
  | .tern c t _, vars => by
    simp only [Raw.order]
    refine mem_mul_of (order_some c vars) ?_
    obtain ⟨p, hp⟩ := order_some t vars
    exact ⟨p, (Language.mem_add _ _ _).2 (.inl hp)⟩
  | .not e, vars | .neg e, vars => by simp only [Raw.order]; exact order_some e vars
theorem orders_some : ∀ (xs : List Raw) (vars : List String), ∀ L ∈ Raw.orders vars xs, ∃ p, p ∈ L
  | [], _ => by simp [Raw.orders]
  | x :: xs, vars => by
    simp only [Raw.orders, List.mem_cons, forall_eq_or_imp]
    exact ⟨order_some x vars, orders_some xs vars⟩
theorem keyOrders_some : ∀ (xs : List (Raw × Raw)) (vars : List String), ∀ L ∈ Raw.keyOrders vars xs, ∃ p, p ∈ L
  | [], _ => by simp [Raw.keyOrders]
  | (k, _) :: xs, vars => by
    simp only [Raw.keyOrders, List.mem_cons, forall_eq_or_imp]
    exact ⟨order_some k vars, keyOrders_some xs vars⟩
theorem valueOrders_some : ∀ (xs : List (Raw × Raw)) (vars : List String), ∀ L ∈ Raw.valueOrders vars xs, ∃ p, p ∈ L
  | [], _ => by simp [Raw.valueOrders]
  | (_, v) :: xs, vars => by
    simp only [Raw.valueOrders, List.mem_cons, forall_eq_or_imp]
    exact ⟨order_some v vars, valueOrders_some xs vars⟩
end

/-! ### Computations whose events follow a language -/

/-- with the variables `S`, the events of `m` are some of the steps of a word of `L`, in that order -/
structure Follows (thing : Value) (S : List Assignment) (L : Language Step) {α : Type} (m : M α) : Prop where
  run : ∀ g sy lg, ∃ x g' sy' evs p, m ⟨S, g, sy, lg⟩ = (x, ⟨S, g', sy', lg ++ evs⟩) ∧ p ∈ L ∧
    List.SublistForall₂ (Event.Is thing) evs p

theorem sub_append {α β : Type} {R : α → β → Prop} {a b : List α} {c d : List β} (h : List.SublistForall₂ R a c)
    (h' : List.SublistForall₂ R b d) : List.SublistForall₂ R (a ++ b) (c ++ d) := by
  rw [List.sublistForall₂_iff] at *
  obtain ⟨l, h1, h2⟩ := h
  obtain ⟨l', h1', h2'⟩ := h'
  exact ⟨l ++ l', List.rel_append h1 h1', h2.append h2'⟩

theorem sub_left {α β : Type} {R : α → β → Prop} {a : List α} {c : List β} (h : List.SublistForall₂ R a c) (d : List β) :
    List.SublistForall₂ R a (c ++ d) := by
  simpa using sub_append h (.nil (l := d))

theorem sub_trans {α β : Type} {R : α → β → Prop} {a : List α} {c d : List β} (h : List.SublistForall₂ R a c)
    (h' : c.Sublist d) : List.SublistForall₂ R a d := by
  rw [List.sublistForall₂_iff] at *
  obtain ⟨l, h1, h2⟩ := h
  exact ⟨l, h1, h2.trans h'⟩

section
variable {thing : Value} {S : List Assignment}

theorem fol_lift {L : Language Step} (hL : ∃ p, p ∈ L) {α : Type} (x : Except Err α) : Follows thing S L (M.lift x) :=
  ⟨fun g sy lg => by
    obtain ⟨p, hp⟩ := hL
    exact ⟨x, g, sy, [], p, by simp [M.lift], hp, .nil⟩⟩

theorem one_some : ∃ p, p ∈ (1 : Language Step) := ⟨[], by simp [Language.mem_one]⟩

theorem fol_pure {L : Language Step} (hL : ∃ p, p ∈ L) {α : Type} (a : α) : Follows thing S L (Pure.pure a : M α) :=
  fol_lift hL (.ok a)

theorem fol_throw {L : Language Step} (hL : ∃ p, p ∈ L) {α : Type} (e : Err) : Follows thing S L (M.throw e : M α) :=
  fol_lift hL (.error e)

theorem fol_mono {L L' : Language Step} (hL : ∀ p ∈ L, ∃ q ∈ L', p.Sublist q) {α : Type} {m : M α} (h : Follows thing S L m) :
    Follows thing S L' m :=
  ⟨fun g sy lg => by
    obtain ⟨x, g', sy', evs, p, h1, h2, h3⟩ := h.run g sy lg
    obtain ⟨q, hq, hs⟩ := hL p h2
    exact ⟨x, g', sy', evs, q, h1, hq, sub_trans h3 hs⟩⟩

theorem fol_le {L L' : Language Step} (hL : ∀ p ∈ L, p ∈ L') {α : Type} {m : M α} (h : Follows thing S L m) :
    Follows thing S L' m := fol_mono (fun p hp => ⟨p, hL p hp, .refl _⟩) h

theorem fol_bind {L L' : Language Step} (hL' : ∃ p, p ∈ L') {α β : Type} {m : M α} {f : α → M β}
    (h : Follows thing S L m) (hf : ∀ a, Follows thing S L' (f a)) : Follows thing S (L * L') (m >>= f) :=
  ⟨fun g sy lg => by
    obtain ⟨x, g1, sy1, evs, p, h1, h2, h3⟩ := h.run g sy lg
    cases x with
    | error e =>
      obtain ⟨q, hq⟩ := hL'
      exact ⟨.error e, g1, sy1, evs, p ++ q, M.bind_error h1, Language.append_mem_mul h2 hq, sub_left h3 q⟩
    | ok a =>
      obtain ⟨y, g2, sy2, evs', q, h4, h5, h6⟩ := (hf a).run g1 sy1 (lg ++ evs)
      refine ⟨y, g2, sy2, evs ++ evs', p ++ q, ?_, Language.append_mem_mul h2 h5, sub_append h3 h6⟩
      rw [M.bind_ok h1, h4, List.append_assoc]⟩

/-- something without steps, then the rest -/
theorem fol_then {L : Language Step} (hL : ∃ p, p ∈ L) {α β : Type} {x : Except Err α} {f : α → M β}
    (hf : ∀ a, Follows thing S L (f a)) : Follows thing S L (M.lift x >>= f) := by
  have := fol_bind hL (fol_lift (thing := thing) (S := S) one_some x) hf
  rwa [one_mul] at this

/-- then something without steps -/
theorem fol_last {L : Language Step} {α β : Type} {m : M α} {f : α → M β} (h : Follows thing S L m)
    (hf : ∀ a, ∃ x : Except Err β, f a = M.lift x) : Follows thing S L (m >>= f) := by
  have h' : ∀ a, Follows thing S 1 (f a) := fun a => by
    obtain ⟨x, hx⟩ := hf a
    rw [hx]
    exact fol_lift one_some x
  have := fol_bind one_some h h'
  rwa [mul_one] at this

theorem fol_ite {L : Language Step} {α : Type} {c : Prop} [Decidable c] {m m' : M α} (h : c → Follows thing S L m)
    (h' : ¬c → Follows thing S L m') : Follows thing S L (if c then m else m') := by
  split
  · exact h ‹_›
  · exact h' ‹_›

theorem fol_scope {L : Language Step} {a : Assignment} {α : Type} {m : M α} (h : Follows thing (S ++ [a]) L m) :
    Follows thing S L (M.withScope a m) :=
  ⟨fun g sy lg => by
    obtain ⟨x, g', sy', evs, p, h1, h2, h3⟩ := h.run g sy lg
    exact ⟨x, g', sy', evs, p, by simp [M.withScope, h1], h2, h3⟩⟩

/-! #### Names, attributes, calls, matches -/

theorem fol_resolve {env : Env} (o : Value) (name : String) (b : Bool) {L : Language Step} (hL : ∃ p, p ∈ L)
    (h : b = false → name ∉ S.map (·.name) → ∃ p ∈ L, ∃ st ∈ p, Event.Is thing (.resolve o name) st) :
    Follows thing S L (ctxResolve env o name b) :=
  ⟨fun g sy lg => by
    unfold ctxResolve
    obtain ⟨p0, hp0⟩ := hL
    cases b with
    | true =>
      cases hb : builtinValue env g name with
      | none => exact ⟨_, g, sy, [], p0, by simp [hb]; rfl, hp0, .nil⟩
      | some v => exact ⟨.ok v, g, sy, [], p0, by simp [hb], hp0, .nil⟩
    | false =>
      cases hs : scopeLookup S name with
      | some a => exact ⟨.ok a.value, g, sy, [], p0, by simp [hs], hp0, .nil⟩
      | none =>
        obtain ⟨p, hp, st, hst, hi⟩ := h rfl (fun hm => by
          obtain ⟨a, ha⟩ := scopeLookup_bound hm
          rw [hs] at ha; cases ha)
        refine ⟨_, g, sy, [.resolve o name], p, by simp [hs]; rfl, hp, ?_⟩
        rw [List.sublistForall₂_iff]
        exact ⟨[st], .cons hi .nil, List.singleton_sublist.2 hst⟩⟩

theorem fol_symbol {env : Env} {name : String} (rt : DataType) (b : Bool) :
    Follows thing S ((Raw.sym name b).order (S.map (·.name))) (evalSymbol env thing name rt b) := by
  unfold evalSymbol
  refine fol_last ?_ fun v => ⟨_, rfl⟩
  have hc : Follows thing S ((Raw.sym name b).order (S.map (·.name))) (ctxResolve env thing name b) := by
    refine fol_resolve thing name b (order_some _ _) fun hb hn => ?_
    subst hb
    refine ⟨[.name name], ?_, .name name, by simp, rfl, rfl⟩
    simp only [Raw.order, Bool.false_eq_true, if_false, if_neg hn]
    rfl
  refine ⟨fun g sy lg => ?_⟩
  obtain ⟨x, g1, sy1, evs, p, h1, h2, h3⟩ := hc.run g sy lg
  cases x with
  | ok a => exact ⟨.ok a, g1, sy1, evs, p, by simp [M.catchErr, h1], h2, h3⟩
  | error e =>
    simp only [M.catchErr, h1]
    cases isSymErr e <;> cases env.defaultValue <;> exact ⟨_, g1, sy1, evs, p, rfl, h2, h3⟩

theorem fol_getAttr {env : Env} (o : Value) (name : String) :
    Follows thing S {[.attr name]} (evalGetAttr env o name) :=
  ⟨fun g sy lg => by
    have hc : Follows thing S {[.attr name]} (ctxResolve env o name false) :=
      fol_resolve o name false (single_some _) fun _ _ => ⟨[.attr name], rfl, .attr name, by simp, rfl⟩
    obtain ⟨x, g1, sy1, evs, p, h1, h2, h3⟩ := hc.run g sy lg
    obtain ⟨p0, hp0⟩ := single_some [Step.attr name]
    unfold evalGetAttr
    cases resolveAttr env o name with
    | ok v => exact ⟨_, g, sy, [], p0, by simp; rfl, hp0, .nil⟩
    | error e =>
      simp only
      by_cases he : isAttrErr e = true
      · rw [if_pos he, h1]
        cases x with
        | ok v => exact ⟨_, g1, sy1, evs, p, rfl, h2, h3⟩
        | error e' =>
          simp only
          by_cases he' : isSymErr e' = true
          · rw [if_pos he']
            cases env.defaultValue <;> exact ⟨_, g1, sy1, evs, p, rfl, h2, h3⟩
          · rw [if_neg he']
            exact ⟨_, g1, sy1, evs, p, rfl, h2, h3⟩
      · rw [if_neg he]
        exact ⟨_, g, sy, [], p0, by simp; rfl, hp0, .nil⟩⟩

theorem fol_callLogged {env : Env} {dc : DecCtx} (f : Value) (args : List Value) :
    Follows thing S {[.call]} (callLogged env dc f args) :=
  ⟨fun g sy _ => ⟨_, g, sy, [.call f args], [.call], rfl, rfl, .cons trivial .nil⟩⟩

theorem star_cons {L : Language Step} : ∀ p ∈ L * L∗, p ∈ L∗ := by
  intro p hp
  have : L∗ = 1 + L * L∗ := (Language.one_add_self_mul_kstar_eq_kstar L).symm
  rw [this]
  exact (Language.mem_add _ _ _).2 (.inr hp)

theorem fol_mapCalls {env : Env} {dc : DecCtx} (f : Value) : ∀ xs : List Value,
    Follows thing S {[.call]}∗ (mapCalls env dc f xs)
  | [] => fol_pure (star_some _) _
  | x :: xs => by
    unfold mapCalls
    exact fol_le star_cons (fol_bind (star_some _) (fol_callLogged f [x]) fun _ =>
      fol_last (fol_mapCalls f xs) fun _ => ⟨_, rfl⟩)

theorem fol_filterCalls {env : Env} {dc : DecCtx} (f : Value) : ∀ xs : List Value,
    Follows thing S {[.call]}∗ (filterCalls env dc f xs)
  | [] => fol_pure (star_some _) _
  | x :: xs => by
    unfold filterCalls
    exact fol_le star_cons (fol_bind (star_some _) (fol_callLogged f [x]) fun _ =>
      fol_last (fol_filterCalls f xs) fun _ => ⟨_, rfl⟩)

theorem fol_callFn {env : Env} {dc : DecCtx} (f : Value) (args : List Value) :
    Follows thing S {[.call]}∗ (callFn env dc f args) := by
  have hlog : ∀ (f : Value) (args : List Value), Follows thing S {[.call]}
      (M.modify fun s => { s with log := s.log ++ [.call f args] }) := fun f args =>
    ⟨fun g sy _ => ⟨_, g, sy, [.call f args], [.call], rfl, rfl, .cons trivial .nil⟩⟩
  unfold callFn
  split
  · exact fol_le star_cons (fol_bind (star_some _) (hlog _ _) fun _ => fol_then (star_some _) fun xs =>
      fol_last (fol_mapCalls _ xs) fun _ => ⟨_, rfl⟩)
  · exact fol_le star_cons (fol_bind (star_some _) (hlog _ _) fun _ => fol_then (star_some _) fun xs =>
      fol_last (fol_filterCalls _ xs) fun _ => ⟨_, rfl⟩)
  · refine fol_le star_cons (m := callLogged env dc f args) ?_
    refine fol_mono ?_ (fol_callLogged f args)
    intro p hp
    refine ⟨p ++ [], Language.append_mem_mul hp (Language.nil_mem_kstar _), by simp⟩

theorem fol_evalCall {env : Env} {dc : DecCtx} (ft rt : DataType) (f : Value) (args : List Value) :
    Follows thing S {[.call]}∗ (evalCall env dc ft rt f args) := by
  have hfin : Follows thing S {[.call]}∗ (finishCall env dc rt f args) := by
    unfold finishCall
    refine fol_last ?_ fun r => ?_
    · refine ⟨fun g sy lg => ?_⟩
      obtain ⟨x, g1, sy1, evs, p, h1, h2, h3⟩ := (fol_callFn (env := env) (dc := dc) (thing := thing) (S := S) f args).run g sy lg
      cases x with
      | ok a => exact ⟨.ok a, g1, sy1, evs, p, by simp [M.catchErr, h1], h2, h3⟩
      | error e => exact ⟨.error (.eng .functionCall), g1, sy1, evs, p, by simp [M.catchErr, h1, M.throw], h2, h3⟩
    · cases h1 : coerceVerify env.utcoffset r with
      | error e => exact ⟨.error e, rfl⟩
      | ok v =>
        cases h2 : fromValue (localise env v) with
        | error e => exact ⟨.error e, by funext s; simp [bind, M.bind, M.lift, h2]⟩
        | ok t =>
          by_cases hc : DataType.compat t rt = true
          · exact ⟨.ok (localise env v), by funext s; simp [bind, M.bind, M.lift, h2, hc, pure, M.pure]⟩
          · exact ⟨.error (.eng .functionCall), by funext s; simp [bind, M.bind, M.lift, h2, hc, M.throw]⟩
  unfold evalCall
  exact fol_ite (fun _ => hfin) fun _ => fol_then (star_some _) fun _ => hfin

theorem fol_opFuzzy {env : Env} (search negate : Bool) (a b : Value) :
    Follows thing S {[.matched]} (opFuzzy env search negate a b) := by
  have h1 := single_some [Step.matched]
  unfold opFuzzy
  split
  · refine fol_ite (fun _ => ?_) fun _ => fol_throw h1 _
    split
    · split
      · refine fol_last (m := recordMatch _) ⟨fun g sy lg => ?_⟩ fun _ => ⟨_, rfl⟩
        exact ⟨_, _, sy, [.matched _], [.matched], rfl, rfl, .cons trivial .nil⟩
      · exact fol_pure h1 _
    · exact fol_pure h1 _
  · split <;> exact fol_pure h1 _
  · exact fol_throw h1 _

/-! #### Operators, collections, loops -/

theorem fol_evalBin {env : Env} {dc : DecCtx} (op : BinOp) {A B L : Language Step} {l r : M Value}
    (hL : L = (match op with | .fuzzy .. => A * (B * {[.matched]}) | _ => A * B)) (hB : ∃ p, p ∈ B)
    (hl : Follows thing S A l) (hr : Follows thing S B r) : Follows thing S L (evalBin env dc op l r) := by
  subst hL
  cases op with
  | add | sub | eq | ne =>
    exact fol_bind hB hl fun a => fol_last hr fun b => ⟨_, rfl⟩
  | cmp op =>
    refine fol_bind hB hl fun a => fol_last hr fun b => ?_
    cases h : opCmpValues env.utcoffset a op b with
    | error e => exact ⟨.error e, rfl⟩
    | ok x => exact ⟨.ok (.bool x), rfl⟩
  | arith op =>
    refine fol_bind hB hl fun a => fol_then hB fun _ => fol_last hr fun b => ?_
    cases h : assertNumeric b with
    | error e => exact ⟨.error e, rfl⟩
    | ok x => exact ⟨_, rfl⟩
  | bit op | shift op =>
    refine fol_bind hB hl fun a => fol_then hB fun t => fol_ite (fun _ => fol_then hB fun _ => fol_last hr fun b => ⟨_, rfl⟩)
      fun _ => ?_
    split
    · exact fol_last hr fun b => ⟨_, rfl⟩
    · exact fol_throw hB _
  | and =>
    exact fol_bind hB hl fun a => fol_ite (fun _ => fol_last hr fun b => ⟨_, rfl⟩) fun _ => fol_pure hB _
  | or =>
    exact fol_bind hB hl fun a => fol_ite (fun _ => fol_pure hB _) fun _ => fol_last hr fun b => ⟨_, rfl⟩
  | fuzzy search negate =>
    have hB' := mem_mul_of hB (single_some [Step.matched])
    refine fol_bind hB' hl fun a => ?_
    split
    · exact fol_bind (single_some _) hr fun b => fol_opFuzzy search negate _ b
    · exact fol_bind (single_some _) hr fun b => fol_opFuzzy search negate _ b
    · exact fol_throw hB' _

theorem fol_seqM {ls : List (Language Step)} {ms : List (M Value)} (hs : ∀ L ∈ ls, ∃ p, p ∈ L)
    (h : List.Forall₂ (fun L m => Follows thing S L m) ls ms) : Follows thing S ls.prod (seqM ms) := by
  induction h with
  | nil => exact fol_pure (by simp [Language.mem_one]) _
  | @cons L m ls ms h _ ih =>
    rw [List.prod_cons]
    unfold seqM
    have hs' : ∀ L ∈ ls, ∃ p, p ∈ L := fun L h => hs L (by simp [h])
    exact fol_bind (prod_some hs') h fun v => fol_last (ih hs') fun vs => ⟨_, rfl⟩

theorem fol_setM {off : TzDb} {ls : List (Language Step)} {ms : List (M Value)} (hs : ∀ L ∈ ls, ∃ p, p ∈ L)
    (h : List.Forall₂ (fun L m => Follows thing S L m) ls ms) : ∀ acc, Follows thing S ls.prod (setM off acc ms) := by
  induction h with
  | nil => exact fun acc => fol_pure (by simp [Language.mem_one]) _
  | @cons L m ls ms h _ ih =>
    intro acc
    rw [List.prod_cons]
    unfold setM
    have hs' : ∀ L ∈ ls, ∃ p, p ∈ L := fun L h => hs L (by simp [h])
    exact fol_bind (prod_some hs') h fun v => fol_ite (fun _ => ih hs' _) fun _ => fol_throw (prod_some hs') _

theorem shuffle_subperm {ls ls' : List (Language Step)} (h : ls.Subperm ls') (hs : ∀ L ∈ ls', ∃ p, p ∈ L) :
    ∀ p ∈ shuffle ls, ∃ q ∈ shuffle ls', p.Sublist q := by
  rintro p ⟨l, hl, hp⟩
  obtain ⟨r, hr⟩ : ∃ r, (ls ++ r).Perm ls' := by
    obtain ⟨k, hk, hk'⟩ := h
    obtain ⟨r, hr⟩ := hk'.exists_perm_append
    exact ⟨r, ((hk.symm.append_right r).trans hr.symm)⟩
  obtain ⟨q, hq⟩ := prod_some (ls := r) fun L hL => hs L (hr.subset (by simp [hL]))
  refine ⟨p ++ q, ⟨l ++ r, (hl.append_right r).trans hr, ?_⟩, List.sublist_append_left p q⟩
  rw [List.prod_append]
  exact Language.append_mem_mul hp hq

/-- the computations of the values are those of these languages -/
abbrev Vals (thing : Value) (S : List Assignment) (acc : List (Value × M Value)) (ls : List (Language Step)) : Prop :=
  List.Forall₂ (fun L (e : Value × M Value) => Follows thing S L e.2) ls acc

theorem fol_insert {off : TzDb} {k : Value} {v : M Value} {L : Language Step} (hv : Follows thing S L v) :
    ∀ {acc : List (Value × M Value)} {ls : List (Language Step)}, Vals thing S acc ls →
    ∃ ls', Vals thing S (mapInsert off acc k v) ls' ∧ ls'.Subperm (L :: ls)
  | _, _, .nil => ⟨[L], .cons hv .nil, .refl _⟩
  | _, _, .cons (a := L') (b := (k', v')) (l₁ := ls) h hs => by
    simp only [mapInsert]
    split
    · exact ⟨L :: ls, .cons hv hs, (List.Sublist.cons_cons L (List.sublist_cons_self _ _)).subperm⟩
    · obtain ⟨ls', h1, h2⟩ := fol_insert (off := off) (k := k) hv hs
      refine ⟨L' :: ls', .cons h h1, ?_⟩
      exact ((List.subperm_cons L').2 h2).trans (List.Perm.swap L L' ls).subperm

theorem fol_vals : ∀ {acc : List (Value × M Value)} {ls : List (Language Step)}, (∀ L ∈ ls, ∃ p, p ∈ L) →
    Vals thing S acc ls → Follows thing S ls.prod (mapValsM acc)
  | [], [], _, _ => fol_pure (by simp [Language.mem_one]) _
  | (k, v) :: acc, L :: ls, hs, h0 => by
    cases h0 with | cons h hr => ?_
    rw [List.prod_cons]
    unfold mapValsM
    have hs' : ∀ L ∈ ls, ∃ p, p ∈ L := fun L h => hs L (by simp [h])
    exact fol_bind (prod_some hs') h fun v => fol_last (fol_vals hs' hr) fun vs => ⟨_, rfl⟩

theorem fol_mapping {off : TzDb} : ∀ {ps : List (M Value × M Value)} {K V : List (Language Step)},
    (∀ L ∈ K, ∃ p, p ∈ L) → (∀ L ∈ V, ∃ p, p ∈ L) →
    List.Forall₂ (fun L (e : M Value × M Value) => Follows thing S L e.1) K ps →
    List.Forall₂ (fun L (e : M Value × M Value) => Follows thing S L e.2) V ps →
    ∀ {acc : List (Value × M Value)} {A : List (Language Step)}, (∀ L ∈ A, ∃ p, p ∈ L) → Vals thing S acc A →
    Follows thing S (K.prod * shuffle (V ++ A)) (mapKeysM off acc ps >>= mapValsM)
  | _, _, _, hK, hV, .nil, .nil, acc, A, hA, ha => by
    have e : (mapKeysM off acc [] >>= mapValsM) = mapValsM acc := by simp only [mapKeysM, pure_bind]
    rw [e, List.prod_nil, one_mul, List.nil_append]
    exact fol_le (L := A.prod) (fun p hp => show p ∈ shuffle A from ⟨A, .refl _, hp⟩) (fol_vals hA ha)
  | (k, v) :: ps, K0 :: K, V0 :: V, hK, hV, .cons hk hks, .cons hv hvs, acc, A, hA, ha => by
    have hK' : ∀ L ∈ K, ∃ p, p ∈ L := fun L h => hK L (by simp [h])
    have hV' : ∀ L ∈ V, ∃ p, p ∈ L := fun L h => hV L (by simp [h])
    have hVA : ∀ L ∈ V0 :: V ++ A, ∃ p, p ∈ L := by
      intro L h
      rcases List.mem_append.1 h with h | h
      · exact hV L h
      · exact hA L h
    have hrest : ∃ p, p ∈ K.prod * shuffle (V0 :: V ++ A) := mem_mul_of (prod_some hK') (shuffle_some hVA)
    rw [List.prod_cons, mul_assoc]
    simp only [mapKeysM, bind_assoc]
    refine fol_bind hrest hk fun key => fol_then hrest fun kt => ?_
    have e : ∀ {α β : Type} (e : Err) (f : α → M β), (M.throw e >>= f) = M.throw e := by intros; rfl
    by_cases h1 : (kt.isCompound && !kt.isArray) = true
    · simp only [h1, if_true]
      rw [e]
      exact fol_throw hrest _
    · simp only [h1]
      by_cases h2 : key.hashable = true
      · simp only [h2, if_true, Bool.false_eq_true, if_false]
        obtain ⟨A', ha', hsub⟩ := fol_insert (off := off) (k := key) hv ha
        have hA' : ∀ L ∈ A', ∃ p, p ∈ L := by
          intro L h
          rcases List.mem_cons.1 (hsub.subset h) with rfl | h
          · exact hV _ (by simp)
          · exact hA L h
        refine fol_mono ?_ (fol_mapping hK' hV' hks hvs hA' ha')
        rintro p hp
        obtain ⟨a, ha1, b, hb, rfl⟩ := Language.mem_mul.1 hp
        have hs : (V ++ A').Subperm (V0 :: V ++ A) := by
          refine ((List.subperm_append_left V).2 hsub).trans ?_
          exact (List.perm_middle (l₁ := V) (l₂ := A) (a := V0)).subperm
        obtain ⟨q, hq, hqs⟩ := shuffle_subperm hs hVA b hb
        exact ⟨a ++ q, Language.append_mem_mul ha1 hq, List.Sublist.append (.refl a) hqs⟩
      · simp only [h2, Bool.false_eq_true, if_false]
        rw [e]
        exact fol_throw hrest _

theorem fol_loop {var : String} {C R : Language Step} (hC : ∃ p, p ∈ C) (hR : ∃ p, p ∈ R) {c r : M Value}
    (hc : ∀ x, Follows thing (S ++ [⟨var, x, .undefined⟩]) C c) (hr : ∀ x, Follows thing (S ++ [⟨var, x, .undefined⟩]) R r) :
    ∀ xs : List Value, Follows thing S (C * R)∗ (compM var c r xs)
  | [] => fol_pure (star_some _) _
  | x :: xs => by
    unfold compM
    refine fol_le star_cons (fol_bind (star_some _) (fol_scope (fol_bind hR (hc x) fun a => fol_ite (fun _ =>
      fol_last (hr x) fun _ => ⟨_, rfl⟩) fun _ => fol_pure hR _)) fun o => ?_)
    exact fol_last (fol_loop hC hR hc hr xs) fun vs => ⟨_, rfl⟩

theorem fol_reduced {env : Env} {dc : DecCtx} {e : Expr} (h : e.reduced = true) {L : Language Step} (hL : ∃ p, p ∈ L) :
    Follows thing S L (eval env dc thing e) := by
  obtain ⟨x, hx⟩ := reduced_const env e h
  rw [hx]
  exact fol_lift hL x

theorem folds_reduced' {env : Env} {dct : DecCtx} {Γ : List Assignment} {n e : Expr} (h : Folds env dct Γ n e) :
    e.reduced = true := by
  obtain ⟨v, -, h⟩ := h
  simp only [litOf, except_bind_ok, Except.ok.injEq] at h
  obtain ⟨t, _, rfl⟩ := h
  exact Expr.ofValue_reduced _ v

theorem attrLit_reduced' {n e : Expr} (h : e.reduced = true) : (attrLit n e).reduced = true := by
  unfold attrLit
  split
  · split <;> rfl
  · exact h

end

/-! ### Whole rules -/

mutual
theorem built_follows {env : Env} {dct dc : DecCtx} {thing : Value} : ∀ (raw : Raw) {Γ S : List Assignment} {e : Expr},
    Built env dct Γ raw e → Follows thing S (raw.order (S.map (·.name))) (eval env dc thing e)
  | .sym n b, Γ, S, e, h => by
    simp only [Built] at h
    obtain ⟨t, _, rfl⟩ := h
    simp only [eval]
    exact fol_symbol t b
  | .lit _, Γ, S, e, h | .floatLit _, Γ, S, e, h | .datetimeLit _, Γ, S, e, h | .timedeltaLit _, Γ, S, e, h => by
    simp only [Built] at h
    obtain ⟨_, _, rfl⟩ := h
    exact fol_reduced rfl (order_some _ _)
  | .array xs, Γ, S, e, h => by
    simp only [Built] at h
    obtain ⟨es, h1, rfl⟩ := h
    simp only [Raw.order, eval]
    exact fol_last (fol_seqM (orders_some xs _) (builts_follows xs h1)) fun _ => ⟨_, rfl⟩
  | .set xs, Γ, S, e, h => by
    simp only [Built] at h
    obtain ⟨es, h1, rfl⟩ := h
    simp only [Raw.order, eval]
    exact fol_last (fol_setM (orders_some xs _) (builts_follows xs h1) _) fun _ => ⟨_, rfl⟩
  | .mapping kvs, Γ, S, e, h => by
    simp only [Built] at h
    obtain ⟨es, h1, -, rfl⟩ := h
    simp only [Raw.order, eval]
    rw [← bind_assoc]
    obtain ⟨hk, hv⟩ := builtp_follows (dc := dc) (thing := thing) (S := S) kvs h1
    have := fol_mapping (off := env.utcoffset) (keyOrders_some kvs _) (valueOrders_some kvs _) hk hv (acc := []) (A := [])
      (by simp) .nil
    rw [List.append_nil] at this
    exact fol_last this fun _ => ⟨_, rfl⟩
  | .bin op l r, Γ, S, e, h => by
    simp only [Built] at h
    obtain ⟨l', r', h1, h2, -, h3⟩ := h
    split at h3
    · exact fol_reduced (folds_reduced' h3) (order_some _ _)
    · subst h3
      simp only [eval]
      refine fol_evalBin op ?_ (order_some r _) (built_follows l h1) (built_follows r h2)
      cases op <;> simp only [Raw.order]
  | .comp result var iterable cond, Γ, S, e, h => by
    simp only [Built] at h
    obtain ⟨it, t, c, r, h1, -, h2, h3, rfl⟩ := h
    simp only [Raw.order, eval]
    refine fol_bind (star_some _) (built_follows iterable h1) fun v => fol_then (star_some _) fun t =>
      fol_ite (fun _ => fol_then (star_some _) fun xs => fol_last ?_ fun _ => ⟨_, rfl⟩) fun _ => fol_throw (star_some _) _
    refine fol_loop (order_some _ _) (order_some _ _) (fun x => ?_) (fun x => ?_) xs
    · have := built_follows (dc := dc) (thing := thing) (S := S ++ [⟨var, x, .undefined⟩]) cond h2
      rwa [List.map_append] at this
    · have := built_follows (dc := dc) (thing := thing) (S := S ++ [⟨var, x, .undefined⟩]) result h3
      rwa [List.map_append] at this
  | .contains l r, Γ, S, e, h => by
    simp only [Built] at h
    obtain ⟨l', r', h1, h2, -, h3⟩ := h
    split at h3
    · obtain ⟨v, -, rfl⟩ := h3
      exact fol_reduced rfl (order_some _ _)
    · subst h3
      simp only [Raw.order, eval]
      refine fol_bind (order_some _ _) (built_follows l h1) fun c => fol_then (order_some _ _) fun t =>
        fol_last (built_follows r h2) fun m => ?_
      cases h : opContains env.utcoffset t c m with
      | error e => exact ⟨.error e, rfl⟩
      | ok b => exact ⟨.ok (.bool b), rfl⟩
  | .getAttr o name safe, Γ, S, e, h => by
    simp only [Built] at h
    obtain ⟨o', h1, -, h3⟩ := h
    split at h3
    · obtain ⟨e', hf, rfl⟩ := h3
      exact fol_reduced (attrLit_reduced' (folds_reduced' hf)) (order_some _ _)
    · subst h3
      simp only [Raw.order, eval]
      exact fol_bind (single_some _) (built_follows o h1) fun v => fol_ite (fun _ => fol_pure (single_some _) _)
        fun _ => fol_getAttr v name
  | .getItem l r safe, Γ, S, e, h => by
    simp only [Built] at h
    obtain ⟨l', r', h1, h2, -, h3⟩ := h
    split at h3
    · subst h3; exact fol_reduced rfl (order_some _ _)
    split at h3
    · exact fol_reduced (folds_reduced' h3) (order_some _ _)
    · subst h3
      have hr := order_some r (S.map (·.name))
      simp only [Raw.order, eval]
      refine fol_bind hr (built_follows l h1) fun c => fol_ite (fun _ => fol_ite (fun _ => fol_pure hr _) fun _ =>
        fol_throw hr _) fun _ => fol_last (built_follows r h2) fun i => ?_
      cases h : opGetItem env.utcoffset c i with
      | error e => exact ⟨.error e, rfl⟩
      | ok o =>
        cases o with
        | some v => exact ⟨.ok (newValue env v), rfl⟩
        | none =>
          cases safe
          · exact ⟨.error (.eng .lookup), rfl⟩
          · exact ⟨.ok .none, rfl⟩
  | .getSlice c a b safe, Γ, S, e, h => by
    simp only [Built] at h
    obtain ⟨c', a', b', h1, h2, h3, -, h4⟩ := h
    split at h4
    · exact fol_reduced (folds_reduced' h4) (order_some _ _)
    · subst h4
      have hb := order_some b (S.map (·.name))
      have hr := mem_mul_of (order_some a (S.map (·.name))) hb
      simp only [Raw.order, eval]
      refine fol_bind hr (built_follows c h1) fun v => fol_ite (fun _ => fol_ite (fun _ => fol_pure hr _) fun _ =>
        fol_throw hr _) fun _ => ?_
      unfold evalSlice
      refine fol_bind hb (built_follows a h2) fun x => fol_then hb fun x => fol_last (built_follows b h3) fun y => ?_
      cases h5 : sliceArg y with
      | error e => exact ⟨.error e, rfl⟩
      | ok y' =>
        cases h6 : pyGetSlice v x y' with
        | error e => exact ⟨.error e, by funext s; simp [bind, M.bind, M.lift, h6]⟩
        | ok w => exact ⟨.ok (coerce env.utcoffset w), by funext s; simp [bind, M.bind, M.lift, h6, pure, M.pure]⟩
  | .call f args, Γ, S, e, h => by
    simp only [Built] at h
    obtain ⟨f', as, h1, h2, -, h3⟩ := h
    split at h3
    · exact fol_reduced (folds_reduced' h3) (order_some _ _)
    · subst h3
      have hr := mem_mul_of (prod_some (orders_some args (S.map (·.name)))) (star_some {[Step.call]})
      simp only [Raw.order, eval]
      exact fol_bind hr (built_follows f h1) fun fv => fol_ite (fun _ => fol_bind (star_some _)
        (fol_seqM (orders_some args _) (builts_follows args h2)) fun vs => fol_evalCall _ _ fv vs) fun _ => fol_throw hr _
  | .tern c t f, Γ, S, e, h => by
    simp only [Built] at h
    obtain ⟨c', t', f', h1, h2, h3, rfl⟩ := h
    have i1 := built_follows (dc := dc) (thing := thing) (S := S) c h1
    have i2 : Follows thing S (t.order (S.map (·.name)) + f.order (S.map (·.name))) (eval env dc thing t') :=
      fol_le (fun p hp => (Language.mem_add _ _ _).2 (.inl hp)) (built_follows t h2)
    have i3 : Follows thing S (t.order (S.map (·.name)) + f.order (S.map (·.name))) (eval env dc thing f') :=
      fol_le (fun p hp => (Language.mem_add _ _ _).2 (.inr hp)) (built_follows f h3)
    have hs : ∃ p, p ∈ t.order (S.map (·.name)) + f.order (S.map (·.name)) := by
      obtain ⟨p, hp⟩ := order_some t (S.map (·.name))
      exact ⟨p, (Language.mem_add _ _ _).2 (.inl hp)⟩
    have after : ∀ {m : M Value}, Follows thing S (t.order (S.map (·.name)) + f.order (S.map (·.name))) m →
        Follows thing S (c.order (S.map (·.name)) * (t.order (S.map (·.name)) + f.order (S.map (·.name)))) m := by
      intro m hm
      refine fol_mono (fun p hp => ?_) hm
      obtain ⟨q, hq⟩ := order_some c (S.map (·.name))
      exact ⟨q ++ p, Language.append_mem_mul hq hp, List.sublist_append_right q p⟩
    simp only [Raw.order]
    unfold mkTern
    split
    · split
      · exact after i2
      · exact after i3
    · simp only [eval]
      exact fol_bind hs i1 fun v => fol_ite (fun _ => i2) fun _ => i3
  | .not x, Γ, S, e, h => by
    simp only [Built] at h
    obtain ⟨x', h1, h3⟩ := h
    split at h3
    · obtain ⟨v, -, rfl⟩ := h3
      exact fol_reduced rfl (order_some _ _)
    · subst h3
      simp only [Raw.order, eval]
      exact fol_last (built_follows x h1) fun _ => ⟨_, rfl⟩
  | .neg x, Γ, S, e, h => by
    simp only [Built] at h
    obtain ⟨x', h1, h3⟩ := h
    split at h3
    · obtain ⟨w, v, t, -, -, -, rfl⟩ := h3
      exact fol_reduced rfl (order_some _ _)
    · subst h3
      simp only [Raw.order, eval]
      exact fol_last (built_follows x h1) fun _ => ⟨_, rfl⟩
theorem builts_follows {env : Env} {dct dc : DecCtx} {thing : Value} : ∀ (xs : List Raw) {Γ S : List Assignment}
    {es : List Expr}, BuiltList env dct Γ xs es →
    List.Forall₂ (fun L m => Follows thing S L m) (Raw.orders (S.map (·.name)) xs) (evals env dc thing es)
  | [], Γ, S, es, h => by
    simp only [BuiltList] at h
    subst h; exact .nil
  | x :: xs, Γ, S, es, h => by
    simp only [BuiltList] at h
    obtain ⟨e, es', h1, h2, rfl⟩ := h
    exact .cons (built_follows x h1) (builts_follows xs h2)
theorem builtp_follows {env : Env} {dct dc : DecCtx} {thing : Value} : ∀ (xs : List (Raw × Raw)) {Γ S : List Assignment}
    {es : List (Expr × Expr)}, BuiltPairs env dct Γ xs es →
    List.Forall₂ (fun L (e : M Value × M Value) => Follows thing S L e.1) (Raw.keyOrders (S.map (·.name)) xs)
      (evalPairs env dc thing es) ∧
    List.Forall₂ (fun L (e : M Value × M Value) => Follows thing S L e.2) (Raw.valueOrders (S.map (·.name)) xs)
      (evalPairs env dc thing es)
  | [], Γ, S, es, h => by
    simp only [BuiltPairs] at h
    subst h; exact ⟨.nil, .nil⟩
  | (k, v) :: xs, Γ, S, es, h => by
    simp only [BuiltPairs] at h
    obtain ⟨k', v', es', h1, h2, h3, rfl⟩ := h
    obtain ⟨i1, i2⟩ := builtp_follows (dc := dc) (thing := thing) (S := S) xs h3
    exact ⟨.cons (built_follows k h1) i1, .cons (built_follows v h2) i2⟩
end


/-- **C67.** Whatever happens during an evaluation, names are asked for, functions called and matches recorded in the order
of the rule as written: the events of the evaluation are some of the steps of a word of `Raw.order`, in that order (some,
because operands may be skipped, constants are computed when the rule is made, and an exception ends the evaluation). -/
theorem steps_in_order (codec : LitCodec) (env : Env) (dct : DecCtx) (text : String) (p p' : Proc) (e : Expr)
    (h : p.rule codec env dct text = (.ok e, p')) (raw : Raw) (c : Option String)
    (hp : (parseText codec p.line text).out = .ok (raw, c)) (thing : Value) (q : Proc) :
    ∃ evs path, (q.evaluate env e thing).2.st.log = q.st.log ++ evs ∧ path ∈ raw.order [] ∧
      List.SublistForall₂ (Event.Is thing) evs path := by
  simp only [Proc.rule, parseRule, hp] at h
  have hb := congrArg Prod.fst h
  have hs := congrArg (fun x => x.2.st) h
  simp only at hb hs
  have hbu := build_built raw (e := e) (s' := p'.st) (Prod.ext hb hs : construct env dct raw p.st = _)
  obtain ⟨x, g', sy', evs, path, h1, h2, h3⟩ :=
    (built_follows (dc := env.decCtx) (thing := thing) (S := []) raw hbu).run .none q.st.symbols q.st.log
  refine ⟨evs, path, ?_, h2, h3⟩
  simp only [Proc.evaluate, ruleEval, St.reset]
  rw [h1]

/-! ### How often a name is asked for -/

mutual
/-- **Specification.** the rule has no comprehensions -/
def Raw.loopFree : Raw → Bool
  | .lit _ | .floatLit _ | .datetimeLit _ | .timedeltaLit _ | .sym .. => true
  | .array xs | .set xs => Raw.loopFreeList xs
  | .mapping kvs => Raw.loopFreePairs kvs
  | .bin _ l r | .contains l r | .getItem l r _ => l.loopFree && r.loopFree
  | .comp .. => false
  | .getAttr o _ _ => o.loopFree
  | .getSlice a b c _ | .tern a b c => a.loopFree && (b.loopFree && c.loopFree)
  | .call f args => f.loopFree && Raw.loopFreeList args
  | .not e | .neg e => e.loopFree
/-- members -/
def Raw.loopFreeList : List Raw → Bool
  | [] => true
  | x :: xs => x.loopFree && Raw.loopFreeList xs
/-- items -/
def Raw.loopFreePairs : List (Raw × Raw) → Bool
  | [] => true
  | (k, v) :: xs => k.loopFree && (v.loopFree && Raw.loopFreePairs xs)
end

/-- the step asks for `n` -/
def Step.asks (n : String) : Step → Bool
  | .name m | .attr m => m == n
  | _ => false

/-- the event asks the resolver for `n` -/
def Event.asks (n : String) : Event → Bool
  | .resolve _ m => m == n
  | _ => false

/-- no word of the language asks for `n` more than `k` times -/
def AtMost (n : String) (L : Language Step) (k : Nat) : Prop := ∀ p ∈ L, p.countP (Step.asks n) ≤ k

theorem atMost_mul {n : String} {L L' : Language Step} {k k' : Nat} (h : AtMost n L k) (h' : AtMost n L' k') :
    AtMost n (L * L') (k + k') := by
  intro p hp
  obtain ⟨a, ha, b, hb, rfl⟩ := Language.mem_mul.1 hp
  rw [List.countP_append]
  exact Nat.add_le_add (h a ha) (h' b hb)

theorem atMost_one {n : String} {k : Nat} : AtMost n 1 k := by
  intro p hp
  rw [Language.mem_one] at hp
  subst hp
  simp

theorem atMost_le {n : String} {L : Language Step} {k k' : Nat} (h : AtMost n L k) (hk : k ≤ k') : AtMost n L k' :=
  fun p hp => (h p hp).trans hk

/-- the languages have at most these numbers -/
abbrev AtMosts (n : String) (ls : List (Language Step)) (ks : List Nat) : Prop := List.Forall₂ (AtMost n) ls ks

theorem atMost_prod {n : String} {ls : List (Language Step)} {ks : List Nat} (h : AtMosts n ls ks) :
    AtMost n ls.prod ks.sum := by
  induction h with
  | nil => exact atMost_one
  | cons h _ ih => rw [List.prod_cons, List.sum_cons]; exact atMost_mul h ih

theorem atMost_shuffle {n : String} {ls : List (Language Step)} {ks : List Nat} (h : AtMosts n ls ks) :
    AtMost n (shuffle ls) ks.sum := by
  rintro p ⟨ls', hl, hp⟩
  obtain ⟨ks', h1, h2⟩ := List.perm_comp_forall₂ hl h
  rw [← h2.sum_eq]
  exact atMost_prod h1 p hp

theorem atMost_calls {n : String} {k : Nat} : AtMost n {[Step.call]}∗ k := by
  intro p hp
  obtain ⟨L, rfl, hL⟩ := Language.mem_kstar.1 hp
  have : List.countP (Step.asks n) L.flatten = 0 := by
    rw [List.countP_eq_zero]
    intro a ha
    obtain ⟨l, hl, hal⟩ := List.mem_flatten.1 ha
    have h1 := hL l hl
    change l = [Step.call] at h1
    subst h1
    simp only [List.mem_singleton] at hal
    subst hal
    simp [Step.asks]
  omega

/-- how often the name is written, free or after a dot -/
def Raw.mentions (n : String) (raw : Raw) : Nat := (raw.uses []).count ⟨n, false, false⟩ + raw.attrNames.count n

mutual
theorem order_atMost (n : String) : ∀ (raw : Raw), raw.loopFree = true → AtMost n (raw.order []) (raw.mentions n)
  | .lit _, _ | .floatLit _, _ | .datetimeLit _, _ | .timedeltaLit _, _ => by
    simp only [Raw.order]; exact atMost_one
  | .array xs, h | .set xs, h => by
    simp only [Raw.loopFree] at h
    obtain ⟨ks, h1, h2⟩ := orders_atMost n xs h
    simp only [Raw.order]
    refine atMost_le (atMost_prod h1) ?_
    rw [h2]
    simp only [Raw.mentions, Raw.uses, Raw.attrNames]
    omega
  | .mapping kvs, h => by
    simp only [Raw.loopFree] at h
    obtain ⟨ks, vs, h1, h2, h3⟩ := pairOrders_atMost n kvs h
    simp only [Raw.order]
    refine atMost_le (atMost_mul (atMost_prod h1) (atMost_shuffle h2)) ?_
    rw [h3]
    simp only [Raw.mentions, Raw.uses, Raw.attrNames]
    omega
  | .bin op l r, h => by
    simp only [Raw.loopFree, Bool.and_eq_true] at h
    have hm : (Raw.bin op l r).mentions n = l.mentions n + r.mentions n := by
      simp only [Raw.mentions, Raw.uses, Raw.attrNames, List.count_append]; omega
    rw [hm]
    have i1 := order_atMost n l h.1
    have i2 := order_atMost n r h.2
    cases op <;> simp only [Raw.order]
    case fuzzy =>
      refine atMost_mul i1 (atMost_le (k := r.mentions n + 0) (atMost_mul i2 ?_) (by omega))
      intro p hp
      change p = [Step.matched] at hp
      subst hp
      simp [Step.asks]
    all_goals exact atMost_mul i1 i2
  | .comp .., h => by simp [Raw.loopFree] at h
  | .contains l r, h | .getItem l r _, h => by
    simp only [Raw.loopFree, Bool.and_eq_true] at h
    simp only [Raw.order]
    refine atMost_le (atMost_mul (order_atMost n l h.1) (order_atMost n r h.2)) ?_
    simp only [Raw.mentions, Raw.uses, Raw.attrNames, List.count_append]; omega
  | .getAttr o m _, h => by
    simp only [Raw.loopFree] at h
    simp only [Raw.order]
    refine atMost_le (k := o.mentions n + (if m == n then 1 else 0)) (atMost_mul (order_atMost n o h) ?_) ?_
    · intro p hp
      change p = [Step.attr m] at hp
      subst hp
      simp [Step.asks, List.countP_cons]
    · simp only [Raw.mentions, Raw.uses, Raw.attrNames, List.count_cons]; omega
  | .getSlice a b c _, h | .tern a b c, h => by
    simp only [Raw.loopFree, Bool.and_eq_true] at h
    have i1 := order_atMost n a h.1
    have i2 := order_atMost n b h.2.1
    have i3 := order_atMost n c h.2.2
    simp only [Raw.order]
    have hk : ∀ {L : Language Step}, AtMost n L (b.mentions n + c.mentions n) →
        AtMost n (a.order [] * L) (List.count ⟨n, false, false⟩ (a.uses [] ++ (b.uses [] ++ c.uses [])) +
          List.count n (a.attrNames ++ b.attrNames ++ c.attrNames)) := by
      intro L hL
      refine atMost_le (atMost_mul i1 hL) ?_
      simp only [Raw.mentions, List.count_append]; omega
    simp only [Raw.mentions, Raw.uses, Raw.attrNames]
    refine hk ?_
    first
      | exact atMost_mul i2 i3
      | (intro p hp
         rcases (Language.mem_add _ _ _).1 hp with hp | hp
         · exact (i2 p hp).trans (by omega)
         · exact (i3 p hp).trans (by omega))
  | .sym m b, _ => by
    simp only [Raw.order, Raw.mentions, Raw.uses, Raw.attrNames]
    cases b with
    | true =>
      simp only [if_true]
      intro p hp
      change p = [Step.read m] at hp
      subst hp
      simp [Step.asks]
    | false =>
      simp only [Bool.false_or, List.not_mem_nil, decide_false, Bool.false_eq_true, if_false]
      intro p hp
      change p = [Step.name m] at hp
      subst hp
      by_cases h : m = n
      · subst h; simp [Step.asks]
      · simp [Step.asks, h]
  | .call f args, h => by
    simp only [Raw.loopFree, Bool.and_eq_true] at h
    obtain ⟨ks, h1, h2⟩ := orders_atMost n args h.2
    simp only [Raw.order]
    refine atMost_le (atMost_mul (order_atMost n f h.1) (atMost_mul (atMost_prod h1) (atMost_calls (k := 0)))) ?_
    rw [h2]
    simp only [Raw.mentions, Raw.uses, Raw.attrNames, List.count_append]
    omega
  | .not e, h | .neg e, h => by
    simp only [Raw.loopFree] at h
    simp only [Raw.order]
    exact order_atMost n e h
theorem orders_atMost (n : String) : ∀ (xs : List Raw), Raw.loopFreeList xs = true →
    ∃ ks, AtMosts n (Raw.orders [] xs) ks ∧
      ks.sum = (Raw.usesList [] xs).count ⟨n, false, false⟩ + (Raw.attrNamesList xs).count n
  | [], _ => ⟨[], .nil, by simp [Raw.usesList, Raw.attrNamesList]⟩
  | x :: xs, h => by
    simp only [Raw.loopFreeList, Bool.and_eq_true] at h
    obtain ⟨ks, h1, h2⟩ := orders_atMost n xs h.2
    refine ⟨_ :: ks, .cons (order_atMost n x h.1) h1, ?_⟩
    rw [List.sum_cons, h2]
    simp only [Raw.mentions, Raw.usesList, Raw.attrNamesList, List.count_append]
    omega
theorem pairOrders_atMost (n : String) : ∀ (xs : List (Raw × Raw)), Raw.loopFreePairs xs = true →
    ∃ ks vs, AtMosts n (Raw.keyOrders [] xs) ks ∧ AtMosts n (Raw.valueOrders [] xs) vs ∧
      ks.sum + vs.sum = (Raw.usesPairs [] xs).count ⟨n, false, false⟩ + (Raw.attrNamesPairs xs).count n
  | [], _ => ⟨[], [], .nil, .nil, by simp [Raw.usesPairs, Raw.attrNamesPairs]⟩
  | (k, v) :: xs, h => by
    simp only [Raw.loopFreePairs, Bool.and_eq_true] at h
    obtain ⟨ks, vs, h1, h2, h3⟩ := pairOrders_atMost n xs h.2.2
    refine ⟨_ :: ks, _ :: vs, .cons (order_atMost n k h.1) h1, .cons (order_atMost n v h.2.1) h2, ?_⟩
    rw [List.sum_cons, List.sum_cons]
    simp only [Raw.mentions, Raw.usesPairs, Raw.attrNamesPairs, List.count_append]
    omega
end

theorem sub_count {thing : Value} {n : String} {evs : List Event} {path : List Step}
    (h : List.SublistForall₂ (Event.Is thing) evs path) : evs.countP (Event.asks n) ≤ path.countP (Step.asks n) := by
  induction h with
  | nil => simp
  | @cons e st evs path hi _ ih =>
    rw [List.countP_cons, List.countP_cons]
    have : Event.asks n e = true → Step.asks n st = true := by
      intro ha
      cases e <;> cases st <;> simp_all [Event.asks, Event.Is, Step.asks]
    by_cases ha : Event.asks n e = true
    · simp only [ha, this ha, if_true]; omega
    · simp only [ha, Bool.false_eq_true, if_false]; omega
  | cons_right _ ih => rw [List.countP_cons]; omega

/-- **C67.** One evaluation of a rule without comprehensions asks the resolver for a name at most as often as the name is
written in the rule, as a name of the thing or after a dot. -/
theorem lookups_at_most_written (codec : LitCodec) (env : Env) (dct : DecCtx) (text : String) (p p' : Proc) (e : Expr)
    (h : p.rule codec env dct text = (.ok e, p')) (raw : Raw) (c : Option String)
    (hp : (parseText codec p.line text).out = .ok (raw, c)) (hl : raw.loopFree = true) (thing : Value) (q : Proc)
    (n : String) : ∃ evs, (q.evaluate env e thing).2.st.log = q.st.log ++ evs ∧
      evs.countP (Event.asks n) ≤ (raw.uses []).count ⟨n, false, false⟩ + raw.attrNames.count n := by
  obtain ⟨evs, path, h1, h2, h3⟩ := steps_in_order codec env dct text p p' e h raw c hp thing q
  exact ⟨evs, h1, (sub_count h3).trans (order_atMost n raw hl path h2)⟩

/-! ### Witnesses -/

/-- the steps of an evaluation in the sample context: names asked of the thing, names asked of other values with a dot -/
def sampleSteps (text : String) (kvs : List (String × Value)) : Option (List String) :=
  match Proc.new.rule plainCodec sampleEnv .default text with
  | (.ok e, p) =>
    some ((p.evaluate sampleEnv e (dictOf kvs)).2.st.log.map fun ev =>
      match ev with
      | .resolve o n => if o == dictOf kvs then n else "." ++ n
      | .call .. => "()"
      | .matched _ => "~")
  | _ => none

/-- The order is that of the text, but for `in` (container first), comprehensions (iterable, then condition and result for
every member) and mapping literals (keys first; the value of a repeated key takes the place of the first one). -/
theorem order_witness :
    sampleSteps "a + b * c" [("a", .int 1), ("b", .int 2), ("c", .int 3)] = some ["a", "b", "c"] ∧
    sampleSteps "a in b" [("a", .int 1), ("b", .tuple [])] = some ["b", "a"] ∧
    sampleSteps "[x + r for x in a if c]" [("a", .tuple [.int 1, .int 2]), ("c", .int 3), ("r", .int 4)] =
      some ["a", "c", "r", "c", "r"] ∧
    sampleSteps "{a: x, b: y, c: z}" [("a", .int 1), ("b", .int 2), ("c", .int 1), ("x", .int 3), ("y", .int 4),
      ("z", .int 5)] = some ["a", "b", "c", "z", "y"] ∧
    sampleSteps "f(a) == m.k and s =~ t" [("f", .userFn 0), ("a", .int 1), ("m", dictOf [("k", .int 1)]),
      ("s", .str "xy"), ("t", .str "x")] = some ["f", "a", "()", "m", ".k", "s", "t", "~"] ∧
    sampleSteps "a and b or c" [("a", .bool false), ("c", .bool true)] = some ["a", "c"] := by
  refine ⟨?_, ?_, ?_, ?_, ?_, ?_⟩ <;> decide +kernel

end RE
