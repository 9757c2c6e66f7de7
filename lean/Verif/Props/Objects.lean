import Verif.Model.Objects
import Verif.Props.World
import Verif.Props.Accept
import Verif.Props.Basics

/-!
# Objects as things, and exchanging resolvers (C77)
-/

set_option linter.unusedSimpArgs false
set_option linter.unusedVariables false
set_option linter.unusedSectionVars false

open scoped Computability

namespace RE

/-! ### The names in an order -/

/-- every step of the words of a language satisfies the predicate -/
structure Words {α : Type} (P : α → Prop) (L : Language α) : Prop where
  all : ∀ p ∈ L, ∀ s ∈ p, P s

section
variable {α : Type} {P : α → Prop}

theorem words_one : Words P (1 : Language α) := ⟨fun p hp s hs => by
  rw [Language.mem_one] at hp; subst hp; cases hs⟩

theorem words_single {a : α} (h : P a) : Words P ({[a]} : Language α) := ⟨fun p hp s hs => by
  change p = [a] at hp; subst hp; rw [List.mem_singleton] at hs; subst hs; exact h⟩

theorem words_mul {L L' : Language α} (h : Words P L) (h' : Words P L') : Words P (L * L') := ⟨fun p hp s hs => by
  obtain ⟨a, ha, b, hb, rfl⟩ := Language.mem_mul.1 hp
  rcases List.mem_append.1 hs with hs | hs
  · exact h.all a ha s hs
  · exact h'.all b hb s hs⟩

theorem words_add {L L' : Language α} (h : Words P L) (h' : Words P L') : Words P (L + L') := ⟨fun p hp s hs => by
  rcases (Language.mem_add _ _ _).1 hp with hp | hp
  · exact h.all p hp s hs
  · exact h'.all p hp s hs⟩

theorem words_star {L : Language α} (h : Words P L) : Words P L∗ := ⟨fun p hp s hs => by
  obtain ⟨ps, rfl, hall⟩ := Language.mem_kstar.1 hp
  obtain ⟨q, hq, hsq⟩ := List.mem_flatten.1 hs
  exact h.all q (hall q hq) s hsq⟩

theorem words_prod : ∀ {ls : List (Language α)}, (∀ L ∈ ls, Words P L) → Words P ls.prod
  | [], _ => by rw [List.prod_nil]; exact words_one
  | L :: ls, h => by
    rw [List.prod_cons]
    exact words_mul (h L (by simp)) (words_prod fun L' h' => h L' (by simp [h']))

theorem words_shuffle {ls : List (Language α)} (h : ∀ L ∈ ls, Words P L) : Words P (shuffle ls) := ⟨fun p hp s hs => by
  obtain ⟨ls', hperm, hp⟩ := hp
  exact (words_prod fun L hL => h L (hperm.mem_iff.1 hL)).all p hp s hs⟩

end

/-- a step for a name satisfies `U`, one for an attribute satisfies `Q` -/
def Step.Named (U Q : String → Prop) : Step → Prop
  | .name n => U n
  | .attr m => Q m
  | _ => True

section
variable {U Q : String → Prop}

mutual
theorem order_words : ∀ (raw : Raw) (vars : List String), (∀ n, ⟨n, false, false⟩ ∈ raw.uses vars → U n) →
    (∀ n ∈ raw.attrNames, Q n) → Words (Step.Named U Q) (raw.order vars)
  | .lit _, vars, _, _ | .floatLit _, vars, _, _ | .datetimeLit _, vars, _, _ | .timedeltaLit _, vars, _, _ => by
    simp only [Raw.order]; exact words_one
  | .array xs, vars, h, h' | .set xs, vars, h, h' => by
    simp only [Raw.uses] at h
    simp only [Raw.attrNames] at h'
    simp only [Raw.order]; exact words_prod (orders_words xs vars h h')
  | .mapping kvs, vars, h, h' => by
    simp only [Raw.uses] at h
    simp only [Raw.attrNames] at h'
    simp only [Raw.order]
    exact words_mul (words_prod (pairOrders_words kvs vars h h').1) (words_shuffle (pairOrders_words kvs vars h h').2)
  | .bin op l r, vars, h, h' => by
    simp only [Raw.uses, List.mem_append] at h
    simp only [Raw.attrNames, List.mem_append] at h'
    have i1 := order_words l vars (fun n hn => h n (.inl hn)) (fun n hn => h' n (.inl hn))
    have i2 := order_words r vars (fun n hn => h n (.inr hn)) (fun n hn => h' n (.inr hn))
    cases op <;> simp only [Raw.order]
    case fuzzy => exact words_mul i1 (words_mul i2 (words_single trivial))
    all_goals exact words_mul i1 i2
  | .comp result var iterable cond, vars, h, h' => by
    simp only [Raw.uses, List.mem_append] at h
    simp only [Raw.attrNames, List.mem_append] at h'
    simp only [Raw.order]
    refine words_mul (order_words iterable vars (fun n hn => h n (.inl hn)) (fun n hn => h' n (by tauto))) (words_star (words_mul
      (order_words cond _ (fun n hn => h n (.inr (.inl hn))) (fun n hn => h' n (by tauto)))
      (order_words result _ (fun n hn => h n (.inr (.inr hn))) (fun n hn => h' n (by tauto)))))
  | .contains l r, vars, h, h' | .getItem l r _, vars, h, h' => by
    simp only [Raw.uses, List.mem_append] at h
    simp only [Raw.attrNames, List.mem_append] at h'
    simp only [Raw.order]
    exact words_mul (order_words l vars (fun n hn => h n (.inl hn)) (fun n hn => h' n (.inl hn)))
      (order_words r vars (fun n hn => h n (.inr hn)) (fun n hn => h' n (.inr hn)))
  | .getAttr o m _, vars, h, h' => by
    simp only [Raw.uses] at h
    simp only [Raw.attrNames, List.mem_cons] at h'
    simp only [Raw.order]
    exact words_mul (order_words o vars h fun n hn => h' n (.inr hn)) (words_single (h' m (.inl rfl)))
  | .getSlice a b c _, vars, h, h' => by
    simp only [Raw.uses, List.mem_append] at h
    simp only [Raw.attrNames, List.mem_append] at h'
    simp only [Raw.order]
    exact words_mul (order_words a vars (fun n hn => h n (by tauto)) (fun n hn => h' n (by tauto)))
      (words_mul (order_words b vars (fun n hn => h n (by tauto)) (fun n hn => h' n (by tauto)))
        (order_words c vars (fun n hn => h n (by tauto)) (fun n hn => h' n (by tauto))))
  | .tern a b c, vars, h, h' => by
    simp only [Raw.uses, List.mem_append] at h
    simp only [Raw.attrNames, List.mem_append] at h'
    simp only [Raw.order]
    exact words_mul (order_words a vars (fun n hn => h n (by tauto)) (fun n hn => h' n (by tauto)))
      (words_add (order_words b vars (fun n hn => h n (by tauto)) (fun n hn => h' n (by tauto)))
        (order_words c vars (fun n hn => h n (by tauto)) (fun n hn => h' n (by tauto))))
  | .sym m b, vars, h, _ => by
    simp only [Raw.uses, List.mem_singleton] at h
    simp only [Raw.order]
    cases b with
    | true => exact words_single trivial
    | false =>
      simp only [Bool.false_eq_true, if_false]
      split
      · exact words_one
      · rename_i hm
        exact words_single (h m (by simp [hm]))
  | .call f args, vars, h, h' => by
    simp only [Raw.uses, List.mem_append] at h
    simp only [Raw.attrNames, List.mem_append] at h'
    simp only [Raw.order]
    exact words_mul (order_words f vars (fun n hn => h n (.inl hn)) (fun n hn => h' n (.inl hn)))
      (words_mul (words_prod (orders_words args vars (fun n hn => h n (.inr hn)) (fun n hn => h' n (.inr hn))))
        (words_star (words_single trivial)))
  | .not e, vars, h, h' | .neg e, vars, h, h' => by
    simp only [Raw.uses] at h
    simp only [Raw.attrNames] at h'
    simp only [Raw.order]
    exact order_words e vars h h'
theorem orders_words : ∀ (xs : List Raw) (vars : List String), (∀ n, ⟨n, false, false⟩ ∈ Raw.usesList vars xs → U n) →
    (∀ n ∈ Raw.attrNamesList xs, Q n) → ∀ L ∈ Raw.orders vars xs, Words (Step.Named U Q) L
  | [], vars, _, _ => by simp [Raw.orders]
  | x :: xs, vars, h, h' => by
    simp only [Raw.usesList, List.mem_append] at h
    simp only [Raw.attrNamesList, List.mem_append] at h'
    simp only [Raw.orders, List.mem_cons]
    intro L hL
    rcases hL with hL | hL
    · rw [hL]; exact order_words x vars (fun n hn => h n (.inl hn)) (fun n hn => h' n (.inl hn))
    · exact orders_words xs vars (fun n hn => h n (.inr hn)) (fun n hn => h' n (.inr hn)) L hL
theorem pairOrders_words : ∀ (xs : List (Raw × Raw)) (vars : List String),
    (∀ n, ⟨n, false, false⟩ ∈ Raw.usesPairs vars xs → U n) → (∀ n ∈ Raw.attrNamesPairs xs, Q n) →
    (∀ L ∈ Raw.keyOrders vars xs, Words (Step.Named U Q) L) ∧ (∀ L ∈ Raw.valueOrders vars xs, Words (Step.Named U Q) L)
  | [], vars, _, _ => by simp [Raw.keyOrders, Raw.valueOrders]
  | (k, v) :: xs, vars, h, h' => by
    simp only [Raw.usesPairs, List.mem_append] at h
    simp only [Raw.attrNamesPairs, List.mem_append] at h'
    have i := pairOrders_words xs vars (fun n hn => h n (by tauto)) (fun n hn => h' n (by tauto))
    simp only [Raw.keyOrders, Raw.valueOrders, List.mem_cons]
    refine ⟨fun L hL => ?_, fun L hL => ?_⟩
    · rcases hL with hL | hL
      · rw [hL]; exact order_words k vars (fun n hn => h n (by tauto)) (fun n hn => h' n (by tauto))
      · exact i.1 L hL
    · rcases hL with hL | hL
      · rw [hL]; exact order_words v vars (fun n hn => h n (by tauto)) (fun n hn => h' n (by tauto))
      · exact i.2 L hL
end
end

/-! ### Construction in a context with another resolver -/

theorem eq_closed : RelClosed (fun {α} (m m' : M α) => m = m') where
  lift _ := rfl
  bind h h' := by rw [h, funext h']
  setGroups _ _ := rfl
  logCall _ _ _ _ := rfl
  rethrow _ _ _ h := by rw [h]
  withScope _ _ _ h := by rw [h]

/-- the context with another resolver -/
abbrev Env.asks (env : Env) (r : Value → String → Except Err Value) : Env := { env with resolver := r }

section
variable {env : Env} {r : Value → String → Except Err Value} {Q : String → Prop}
  (hQ : ∀ v n, Q n → env.resolver v n = r v n) (dct : DecCtx)
include hQ

theorem evalGetAttr_asks (o : Value) (n : String) (h : Q n) : evalGetAttr env o n = evalGetAttr (env.asks r) o n := by
  funext s
  simp only [evalGetAttr, ctxResolve, hQ o n h]
  rfl

theorem eval_asks (e : Expr) (h : e.allNames (fun _ _ _ => False) Q) :
    eval env dct .none e = eval (env.asks r) dct .none e :=
  eval_rel (R := fun {α} (m m' : M α) => m = m') eq_closed (r := r) (t := env.typeResolver) (d := env.defaultValue) dct
    (fun _ _ _ h => h.elim) (fun o n h => evalGetAttr_asks hQ o n h) e h

theorem foldLit_asks (e : Expr) (h : e.allNames (fun _ _ _ => False) Q) : foldLit env dct e = foldLit (env.asks r) dct e := by
  unfold foldLit; rw [eval_asks hQ dct e h]

theorem mkBin_asks (op : BinOp) (l x : Expr) : mkBin env dct op l x = mkBin (env.asks r) dct op l x := by
  unfold mkBin
  by_cases h : (l.reduced && x.reduced) = true
  · rw [if_pos h, if_pos h, foldLit_asks hQ dct _ (by
      rw [Bool.and_eq_true] at h
      simp only [Expr.allNames]
      exact ⟨l.allNames_of_reduced h.1, x.allNames_of_reduced h.2⟩)]
    rfl
  · rw [if_neg h, if_neg h]; rfl

theorem mkContains_asks (l x : Expr) : mkContains env dct l x = mkContains (env.asks r) dct l x := by
  unfold mkContains
  by_cases h : (l.reduced && x.reduced) = true
  · rw [if_pos h, if_pos h, eval_asks hQ dct _ (by
      rw [Bool.and_eq_true] at h
      simp only [Expr.allNames]
      exact ⟨l.allNames_of_reduced h.1, x.allNames_of_reduced h.2⟩)]
  · rw [if_neg h, if_neg h]

theorem mkGetAttr_asks (o : Expr) (n : String) (safe : Bool) (hn : Q n) :
    mkGetAttr env dct o n safe = mkGetAttr (env.asks r) dct o n safe := by
  unfold mkGetAttr
  by_cases h : o.reduced = true
  · simp only [if_pos h, foldLit_asks hQ dct (.getAttr o n safe) (by
      simp only [Expr.allNames]
      exact ⟨o.allNames_of_reduced h, hn⟩)]
  · simp only [if_neg h]

theorem mkGetItem_asks (c i : Expr) (safe : Bool) : mkGetItem env dct c i safe = mkGetItem (env.asks r) dct c i safe := by
  unfold mkGetItem
  by_cases h : (c.reduced && i.reduced) = true
  · rw [if_pos h, if_pos h, foldLit_asks hQ dct (.getItem c i safe) (by
      rw [Bool.and_eq_true] at h
      simp only [Expr.allNames]
      exact ⟨c.allNames_of_reduced h.1, i.allNames_of_reduced h.2⟩)]
  · rw [if_neg h, if_neg h]

theorem mkGetSlice_asks (c a b : Expr) (safe : Bool) :
    mkGetSlice env dct c a b safe = mkGetSlice (env.asks r) dct c a b safe := by
  unfold mkGetSlice
  by_cases h : (c.reduced && a.reduced && b.reduced) = true
  · rw [if_pos h, if_pos h, foldLit_asks hQ dct (.getSlice c a b safe) (by
      rw [Bool.and_eq_true, Bool.and_eq_true] at h
      simp only [Expr.allNames]
      exact ⟨c.allNames_of_reduced h.1.1, a.allNames_of_reduced h.1.2, b.allNames_of_reduced h.2⟩)]
  · rw [if_neg h, if_neg h]

theorem mkCall_asks (f : Expr) (args : List Expr) : mkCall env dct f args = mkCall (env.asks r) dct f args := by
  unfold mkCall
  by_cases h : (f.reduced && Expr.reducedList args) = true
  · simp only [if_pos h, foldLit_asks hQ dct (.call f args) (by
      rw [Bool.and_eq_true] at h
      simp only [Expr.allNames]
      exact ⟨f.allNames_of_reduced h.1, Expr.allNamesList_of_reduced args h.2⟩)]
  · simp only [if_neg h]

theorem mkNot_asks (e : Expr) : mkNot env dct e = mkNot (env.asks r) dct e := by
  unfold mkNot
  by_cases h : e.reduced = true
  · rw [if_pos h, if_pos h, eval_asks hQ dct _ (by
      simp only [Expr.allNames]
      exact e.allNames_of_reduced h)]
  · rw [if_neg h, if_neg h]

theorem mkNeg_asks (e : Expr) : mkNeg env dct e = mkNeg (env.asks r) dct e := by
  unfold mkNeg
  by_cases h : e.reduced = true
  · rw [if_pos h, if_pos h]
    split
    · rw [eval_asks hQ dct _ (by simp [Expr.allNames])]
    · rw [eval_asks hQ dct _ (by simp [Expr.allNames])]
    · rfl
  · rw [if_neg h, if_neg h]

mutual
/-- Construction asks the resolver only for what is written after a dot. -/
theorem build_asks : ∀ raw : Raw, (∀ n ∈ raw.attrNames, Q n) → build env dct raw = build (env.asks r) dct raw
  | .lit _, _ | .floatLit _, _ | .timedeltaLit _, _ => by simp only [build]
  | .datetimeLit _, _ => by simp only [build]; rfl
  | .array xs, h | .set xs, h => by
    simp only [Raw.attrNames] at h
    simp only [build, buildList_asks xs h]
  | .mapping kvs, h => by
    simp only [Raw.attrNames] at h
    simp only [build, buildPairs_asks kvs h]
  | .bin op l x, h => by
    simp only [Raw.attrNames, List.mem_append] at h
    simp only [build, build_asks l fun n hn => h n (.inl hn), build_asks x fun n hn => h n (.inr hn), mkBin_asks hQ dct]
  | .comp result var iterable cond, h => by
    simp only [Raw.attrNames, List.mem_append] at h
    simp only [build, build_asks result fun n hn => h n (by tauto), build_asks iterable fun n hn => h n (by tauto),
      build_asks cond fun n hn => h n (by tauto)]
  | .contains l x, h => by
    simp only [Raw.attrNames, List.mem_append] at h
    simp only [build, build_asks l fun n hn => h n (.inl hn), build_asks x fun n hn => h n (.inr hn), mkContains_asks hQ dct]
  | .getAttr o m safe, h => by
    simp only [Raw.attrNames, List.mem_cons] at h
    simp only [build, build_asks o fun n hn => h n (.inr hn), mkGetAttr_asks hQ dct _ m safe (h m (.inl rfl))]
  | .getItem l x safe, h => by
    simp only [Raw.attrNames, List.mem_append] at h
    simp only [build, build_asks l fun n hn => h n (.inl hn), build_asks x fun n hn => h n (.inr hn), mkGetItem_asks hQ dct]
  | .getSlice a b c safe, h => by
    simp only [Raw.attrNames, List.mem_append] at h
    simp only [build, build_asks a fun n hn => h n (by tauto), build_asks b fun n hn => h n (by tauto),
      build_asks c fun n hn => h n (by tauto), mkGetSlice_asks hQ dct]
  | .sym n b, _ => by simp only [build]; rfl
  | .call f args, h => by
    simp only [Raw.attrNames, List.mem_append] at h
    simp only [build, build_asks f fun n hn => h n (.inl hn), buildList_asks args fun n hn => h n (.inr hn),
      mkCall_asks hQ dct]
  | .tern a b c, h => by
    simp only [Raw.attrNames, List.mem_append] at h
    simp only [build, build_asks a fun n hn => h n (by tauto), build_asks b fun n hn => h n (by tauto),
      build_asks c fun n hn => h n (by tauto)]
  | .not e, h => by
    simp only [Raw.attrNames] at h
    simp only [build, build_asks e h, mkNot_asks hQ dct]
  | .neg e, h => by
    simp only [Raw.attrNames] at h
    simp only [build, build_asks e h, mkNeg_asks hQ dct]
theorem buildList_asks : ∀ xs : List Raw, (∀ n ∈ Raw.attrNamesList xs, Q n) →
    buildList env dct xs = buildList (env.asks r) dct xs
  | [], _ => by simp only [buildList]
  | x :: xs, h => by
    simp only [Raw.attrNamesList, List.mem_append] at h
    simp only [buildList, build_asks x fun n hn => h n (.inl hn), buildList_asks xs fun n hn => h n (.inr hn)]
theorem buildPairs_asks : ∀ xs : List (Raw × Raw), (∀ n ∈ Raw.attrNamesPairs xs, Q n) →
    buildPairs env dct xs = buildPairs (env.asks r) dct xs
  | [], _ => by simp only [buildPairs]
  | (k, v) :: xs, h => by
    simp only [Raw.attrNamesPairs, List.mem_append] at h
    simp only [buildPairs, build_asks k fun n hn => h n (by tauto), build_asks v fun n hn => h n (by tauto),
      buildPairs_asks xs fun n hn => h n (by tauto)]
end
end

/-! ### Exchanging the resolver -/

theorem sub_mem {thing : Value} {ev : Event} {evs : List Event} {path : List Step}
    (h : List.SublistForall₂ (Event.Is thing) evs path) (hm : ev ∈ evs) : ∃ st ∈ path, Event.Is thing ev st := by
  induction h with
  | nil => cases hm
  | @cons e st evs path hi _ ih =>
    rcases List.mem_cons.1 hm with rfl | hm
    · exact ⟨st, by simp, hi⟩
    · obtain ⟨st', h1, h2⟩ := ih hm
      exact ⟨st', by simp [h1], h2⟩
  | cons_right _ ih =>
    obtain ⟨st', h1, h2⟩ := ih hm
    exact ⟨st', by simp [h1], h2⟩

theorem rule_asks {codec : LitCodec} {env : Env} {r : Value → String → Except Err Value} {dct : DecCtx} {text : String}
    {p : Proc} {raw : Raw} {c : Option String} (hp : (parseText codec p.line text).out = .ok (raw, c))
    (ha : ∀ v, ∀ n ∈ raw.attrNames, env.resolver v n = r v n) :
    p.rule codec (env.asks r) dct text = p.rule codec env dct text := by
  have hb := build_asks (Q := (· ∈ raw.attrNames)) (fun v n hn => ha v n hn) dct raw fun _ h => h
  simp only [Proc.rule, parseRule, hp, construct, hb]

theorem evaluate_asks {codec : LitCodec} {env : Env} {r : Value → String → Except Err Value} {dct : DecCtx} {text : String}
    {p p' : Proc} {raw : Raw} {c : Option String} {e : Expr} (hp : (parseText codec p.line text).out = .ok (raw, c))
    (h : p.rule codec env dct text = (.ok e, p')) (ha : ∀ v, ∀ n ∈ raw.attrNames, env.resolver v n = r v n) {thing : Value}
    (hn : ∀ n, ⟨n, false, false⟩ ∈ raw.uses [] → env.resolver thing n = r thing n) (q : Proc) :
    (q.evaluate env e thing).1 = (q.evaluate (env.asks r) e thing).1 := by
  obtain ⟨evs, path, h1, h2, h3⟩ := steps_in_order_world (.still env) codec env dct text p p' e h raw c hp thing q
  have honly := (order_words (U := fun n => ⟨n, false, false⟩ ∈ raw.uses []) (Q := (· ∈ raw.attrNames)) raw []
    (fun _ h => h) (fun _ h => h)).all path h2
  rw [← still_world]
  have e1 : q.evaluateW (.still env) (env.asks r) e thing = q.evaluateW (.still env) env e thing := by
    simp only [Proc.evaluateW, ruleEvalW, evalW_resolver]
  rw [← e1]
  refine snapshot (.still env) (env.asks r) e thing q ?_
  rw [e1, h1]
  intro h q' hq1 hq2
  split
  · rename_i o n
    have hmem : Event.resolve o n ∈ evs := by
      obtain ⟨a, rfl⟩ := hq1
      obtain ⟨b, hb⟩ := hq2
      have : evs = a ++ [.resolve o n] ++ b := by
        have h3 : q.st.log ++ (a ++ [.resolve o n] ++ b) = q.st.log ++ evs := by simpa using hb
        exact (List.append_cancel_left h3).symm
      rw [this]; simp
    obtain ⟨st, hst, his⟩ := sub_mem h3 hmem
    have := honly st hst
    cases st with
    | name m =>
      obtain ⟨rfl, rfl⟩ := his
      exact hn _ this
    | attr m =>
      change n = m at his
      subst his
      exact ha o _ this
    | _ => exact his.elim
  · exact fun _ => rfl
  · rfl
  · trivial

open Classical in
/-- **C77.** A rule asks its resolver only for the names it takes from the thing and for what it writes after a dot: with two
resolvers that agree there it is constructed in the same way, and evaluates in the same way (each resolver with its own thing). -/
theorem resolver_exchanged (codec : LitCodec) (env : Env) (r : Value → String → Except Err Value) (dct : DecCtx) (text : String)
    (p : Proc) (raw : Raw) (c : Option String) (hp : (parseText codec p.line text).out = .ok (raw, c))
    (ha : ∀ v, ∀ n ∈ raw.attrNames, env.resolver v n = r v n) :
    p.rule codec (env.asks r) dct text = p.rule codec env dct text ∧
    ∀ (e : Expr) (p' : Proc), p.rule codec env dct text = (.ok e, p') → ∀ thing thing' : Value,
      (∀ n, ⟨n, false, false⟩ ∈ raw.uses [] → env.resolver thing n = r thing' n) → ∀ q : Proc,
      (q.evaluate env e thing).1 = (q.evaluate (env.asks r) e thing').1 := by
  refine ⟨rule_asks hp ha, fun e p' h thing thing' hn q => ?_⟩
  by_cases heq : thing = thing'
  · subst heq
    exact evaluate_asks hp h ha hn q
  -- a resolver that answers for both things
  let R : Value → String → Except Err Value := fun v n => if v = thing ∧ n ∉ raw.attrNames then env.resolver v n else r v n
  have hR : ∀ v, ∀ n ∈ raw.attrNames, env.resolver v n = R v n := by
    intro v n hn
    simp only [R, hn, not_true_eq_false, and_false, if_false, ha v n hn]
  have hR' : ∀ v, ∀ n ∈ raw.attrNames, R v n = r v n := fun v n hn => (hR v n hn).symm.trans (ha v n hn)
  have ht : ∀ n, env.resolver thing n = R thing n := by
    intro n
    simp only [R, true_and]
    split
    · rfl
    · rename_i hm
      exact ha thing n (not_not.1 hm)
  have ht' : ∀ n, R thing' n = r thing' n := by
    intro n
    simp only [R, Ne.symm heq, false_and, if_false]
  have hruleR : p.rule codec (env.asks R) dct text = (.ok e, p') := (rule_asks hp hR).trans h
  have s1 := evaluate_asks hp h hR (thing := thing) (fun n _ => ht n) q
  have s2 := depends_on_free_names codec (env.asks R) dct text p p' e hruleR raw c hp thing thing'
    (fun n hx => (ht n).symm.trans ((hn n hx).trans (ht' n).symm)) q
  have s3 := evaluate_asks (env := env.asks R) (r := r) hp hruleR hR' (thing := thing') (fun n _ => ht' n) q
  exact s1.trans (s2.trans s3)

/-! ### Objects that do not change -/

/-- **C77.** `resolve_attribute` of an object that does not change: the attribute, if there is one; SymbolResolutionError
exactly if there is none; any other exception of the object as it is. -/
theorem resolve_attribute_gives (A : Value → String → Access) (o : Value) (n : String) :
    (∀ v, A o n = .value v → resolveAttribute A o n = .ok v) ∧
    (A o n = .missing → resolveAttribute A o n = .error (.eng (.symbolResolution n))) ∧
    (∀ x, A o n = .raises x → resolveAttribute A o n = .error x) := by
  refine ⟨fun v h => ?_, fun h => ?_, fun x h => ?_⟩ <;>
    simp [resolveAttribute, Objects.resolve, Objects.still, Access.has, Access.get, h]

theorem resolveItem_items (off : TzDb) (kind : MapKind) (items : List (String × Value)) (n : String) :
    resolveItem off (.map kind (items.map fun q => (.str q.1, q.2))) n = match items.find? (fun q => q.1 == n) with
      | some q => .ok q.2
      | none => .error (.eng (.symbolResolution n)) := by
  have hf : mapLookup off (items.map fun q => (Value.str q.1, q.2)) (.str n) = (items.find? (fun q => q.1 == n)).map (·.2) := by
    simp only [mapLookup, List.find?_map, Option.map_map]
    have hfun : ((fun p : Value × Value => pyEq off p.1 (Value.str n)) ∘ fun q : String × Value => (Value.str q.1, q.2)) =
        fun q => q.1 == n := by
      funext q
      rw [Function.comp_apply, Bool.eq_iff_iff, pyEq_str_right, beq_iff_eq]
      exact ⟨fun h => by injection h, fun h => by rw [h]⟩
    rw [hfun]
    rfl
  have hs : ((items.map fun q => (Value.str q.1, q.2)).all fun p => p.1.isStr) = true := by
    simp [List.all_eq_true, Value.isStr]
  simp only [resolveItem, hf]
  cases items.find? (fun q => q.1 == n) with
  | some q => rfl
  | none => simp only [Option.map_none, hs, if_true]

/-- **C77.** A rule without dots gives with `resolve_attribute` on an object what it gives with `resolve_item` on a dictionary, if
the attributes the rule names are the items. -/
theorem object_as_dict (codec : LitCodec) (env : Env) (A : Value → String → Access) (hA : env.resolver = resolveAttribute A)
    (dct : DecCtx) (text : String) (p : Proc) (raw : Raw) (c : Option String)
    (hp : (parseText codec p.line text).out = .ok (raw, c)) (hd : raw.attrNames = []) :
    p.rule codec (env.asks (resolveItem env.utcoffset)) dct text = p.rule codec env dct text ∧
    ∀ (e : Expr) (p' : Proc), p.rule codec env dct text = (.ok e, p') → ∀ (o : Value) (kind : MapKind) (items : List (String × Value)),
      (∀ n, ⟨n, false, false⟩ ∈ raw.uses [] → A o n = match items.find? (fun q => q.1 == n) with
        | some q => .value q.2
        | none => .missing) → ∀ q : Proc,
      (q.evaluate env e o).1 = (q.evaluate (env.asks (resolveItem env.utcoffset)) e
        (.map kind (items.map fun q => (.str q.1, q.2)))).1 := by
  obtain ⟨h1, h2⟩ := resolver_exchanged codec env (resolveItem env.utcoffset) dct text p raw c hp (by simp [hd])
  refine ⟨h1, fun e p' h o kind items hi q => h2 e p' h o _ (fun n hn => ?_) q⟩
  rw [hA, resolveItem_items]
  have := hi n hn
  obtain ⟨g1, g2, -⟩ := resolve_attribute_gives A o n
  cases hf : items.find? (fun q => q.1 == n) with
  | some q => rw [hf] at this; exact g1 _ this
  | none => rw [hf] at this; exact g2 this

/-! ### Paths -/

/-- the text `x.n₁.n₂…` -/
def pathText (x : String) (ns : List String) : List Char := x.toList ++ ns.flatMap fun n => '.' :: n.toList

/-- what it means -/
def pathRaw (x : String) (ns : List String) : Raw := ns.foldl (fun e n => .getAttr e n false) (.sym x false)

/-- a name that can be written without `$` -/
def PlainName (n : String) : Prop := IsWord n.toList ∧ n.toList.head? ≠ some '$'

theorem PlainName.ahead {n : String} (h : PlainName n) (rest : List Char) : nameAhead (n.toList ++ rest) = true := by
  obtain ⟨hn, hd⟩ := h
  have := hn.1
  unfold isName dropDollar at this
  cases hc : n.toList with
  | nil => rw [hc] at this; cases this
  | cons c r =>
    rw [hc] at this hd
    simp only [List.head?_cons, ne_eq, Option.some.injEq] at hd
    split at this
    · rename_i heq
      split at heq
      · rename_i h'; exact absurd (List.cons.inj h').1 hd
      · cases heq
        simp only [Bool.and_eq_true] at this
        simp [nameAhead, this.1]
    · cases this

/-- the pieces after the first name -/
def pathPieces : List String → List Piece
  | [] => []
  | n :: ns => .tok (fixed .ATTR) ['.'] :: .tok ⟨.SYMBOL, n.toList⟩ n.toList :: pathPieces ns

theorem pathPieces_text : ∀ ns, textOf (pathPieces ns) = ns.flatMap fun n => '.' :: n.toList
  | [] => rfl
  | n :: ns => by simp [pathPieces, textOf_tok, pathPieces_text ns]

theorem name_ends {ns : List String} {n : List Char} {b : Option Char} :
    ends b ⟨.SYMBOL, n⟩ n (textOf (pathPieces ns)) = true := by
  rw [pathPieces_text]
  cases ns with
  | nil => simp [ends, headAll]
  | cons m ms => simp [ends, headAll, isNameChar, isQuote]

theorem laid_path : ∀ (ns : List String), (∀ n ∈ ns, PlainName n) → ∀ (x : String), PlainName x → ∀ b,
    Laid b (.tok ⟨.SYMBOL, x.toList⟩ x.toList :: pathPieces ns)
  | [], _, x, hx, b => laid_name hx.1 (.inl rfl) (fun _ => trivial) b
  | n :: ns, h, x, hx, b => by
    have ih := laid_path ns (fun m hm => h m (by simp [hm])) n (h n (by simp))
    refine ⟨⟨hx.1.1, hx.1.2, rfl⟩, ⟨name_ends, by simp⟩, by simp [attached], ?_⟩
    refine ⟨⟨rfl, rfl⟩, ⟨?_, by simp [fixed]⟩, fun _ => ?_, ih _⟩
    · rw [textOf_tok]
      exact (h n (by simp)).ahead _
    · exact name_last hx.1.1

/-- the concrete tree of a path -/
def pathSyn (s : Syn) (ns : List String) : Syn := ns.foldl (fun s n => .attr s n.toList false) s

theorem pathSyn_toks : ∀ (ns : List String) (s : Syn), (pathSyn s ns).toks = s.toks ++ toksOf (pathPieces ns)
  | [], s => by simp [pathSyn, pathPieces, toksOf]
  | n :: ns, s => by
    have := pathSyn_toks ns (.attr s n.toList false)
    simp only [pathSyn, List.foldl_cons] at this ⊢
    rw [this]
    simp [Syn.toks, pathPieces, toksOf_tok, dot]

theorem pathSyn_ok (codec : LitCodec) : ∀ (ns : List String) (s : Syn), s.ok codec = true → s.isObj = true →
    (pathSyn s ns).ok codec = true
  | [], s, h, _ => h
  | n :: ns, s, h, h' => by
    simp only [pathSyn, List.foldl_cons]
    exact pathSyn_ok codec ns _ (by simp [Syn.ok, h, h']) rfl

theorem pathSyn_raw (codec : LitCodec) : ∀ (ns : List String) (s : Syn),
    (pathSyn s ns).raw codec = ns.foldl (fun e n => .getAttr e n false) (s.raw codec)
  | [], s => rfl
  | n :: ns, s => by
    have := pathSyn_raw codec ns (.attr s n.toList false)
    simp only [pathSyn, List.foldl_cons] at this ⊢
    rw [this]
    simp [Syn.raw, String.ofList_toList]

theorem means_path {codec : LitCodec} (x : String) (ns : List String) (hx : PlainName x) (h : ∀ n ∈ ns, PlainName n) :
    Means codec (pathText x ns) (pathRaw x ns) := by
  refine (means_iff ..).2 ⟨pathSyn (.sym x.toList) ns, ?_, ?_⟩
  · have hl := laid_path ns h x hx none
    have hok : (pathSyn (.sym x.toList) ns).ok codec = true := by
      refine pathSyn_ok codec ns _ ?_ rfl
      rw [Syn.ok]
      have := hx.1.1
      cases hc : x.toList with
      | nil => rw [hc] at this; cases this
      | cons => rfl
    have := shows_of (codec := codec) hok hl (by rw [pathSyn_toks, toksOf_tok]; rfl)
    rwa [textOf_tok, pathPieces_text] at this
  · rw [pathSyn_raw]
    have : symRaw x.toList = .sym x false := by
      have hd := hx.2
      have e : x = String.ofList x.toList := (String.ofList_toList).symm
      generalize hc : x.toList = cs at hd e
      rw [e]
      unfold symRaw
      split
      · simp at hd
      · rfl
    simp only [Syn.raw, this]
    rfl

/-- the rule of a path of names without declared types -/
def pathExpr (x : String) (ns : List String) : Expr := ns.foldl (fun e n => .getAttr e n false) (.sym x .undefined false)

theorem pathExpr_snoc (x : String) (ns : List String) (n : String) :
    pathExpr x (ns ++ [n]) = .getAttr (pathExpr x ns) n false := by simp [pathExpr]

theorem pathRaw_snoc (x : String) (ns : List String) (n : String) :
    pathRaw x (ns ++ [n]) = .getAttr (pathRaw x ns) n false := by simp [pathRaw]

theorem pathExpr_open (x : String) (ns : List String) : (pathExpr x ns).rt = .undefined ∧ (pathExpr x ns).reduced = false := by
  induction ns using List.reverseRecOn with
  | nil => exact ⟨rfl, rfl⟩
  | append_singleton ns n ih =>
    rw [pathExpr_snoc]
    refine ⟨?_, rfl⟩
    simp only [Expr.rt, ih.1]
    rfl

theorem build_path {env : Env} {dct : DecCtx} {x : String} (ht : env.typeResolver x = .ok .undefined) (ns : List String) (s : St)
    (hs : s.scopes = []) : ∃ s', build env dct (pathRaw x ns) s = (.ok (pathExpr x ns), s') := by
  induction ns using List.reverseRecOn with
  | nil =>
    refine ⟨{ s with symbols := x :: s.symbols }, ?_⟩
    simp only [pathRaw, pathExpr, List.foldl_nil, build, mkSym, M.bind_apply, M.modify, ctxResolveType, hs, scopeLookup,
      List.find?_nil, ht, Bool.false_eq_true, if_false, M.pure_apply]
  | append_singleton ns n ih =>
    obtain ⟨s', h⟩ := ih
    refine ⟨s', ?_⟩
    rw [pathRaw_snoc, pathExpr_snoc]
    simp only [build]
    rw [bind_ok' h]
    obtain ⟨h1, h2⟩ := pathExpr_open x ns
    simp only [mkGetAttr, h1, h2]
    rfl

/-- **Specification.** Python's `o.n₁.n₂…` for attributes that are objects of classes the engine does not know. -/
inductive Leads (A : Value → String → Access) : Value → List String → Value → Prop
  | here (o : Value) : Leads A o [] o
  | step {o v : Value} {n : String} {i : Nat} {ns : List String} (h : A o n = .value (.obj i)) (h' : Leads A (.obj i) ns v) :
    Leads A o (n :: ns) v

theorem leads_snoc {A : Value → String → Access} {o v : Value} {ns : List String} {n : String} (h : Leads A o (ns ++ [n]) v) :
    ∃ w i, Leads A o ns w ∧ A w n = .value (.obj i) ∧ v = .obj i := by
  induction ns generalizing o with
  | nil =>
    cases h with
    | step h h' => cases h'; exact ⟨_, _, .here _, h, rfl⟩
  | cons m ms ih =>
    cases h with
    | step h h' =>
      obtain ⟨w, i, h1, h2, h3⟩ := ih h'
      exact ⟨w, i, .step h h1, h2, h3⟩

/-- what a name or attribute that is asked of an object gives -/
def Access.given (env : Env) (a : Access) (failure : Err) : Except Err Value :=
  match a with
  | .value v => .ok (newValue env v)
  | .missing => match env.defaultValue with
    | some d => .ok (newValue env d)
    | none => .error failure
  | .raises e => .error e

theorem eval_path_name {env : Env} {A : Value → String → Access} (hA : env.resolver = resolveAttribute A) (dc : DecCtx)
    (thing : Value) (x : String) (hr : ∀ e, A thing x = .raises e → isSymErr e = false) (s : St) (hs : s.scopes = []) :
    ∃ s', s'.scopes = [] ∧ eval env dc thing (.sym x .undefined false) s =
      ((A thing x).given env (.eng (.symbolResolution x)), s') := by
  refine ⟨{ s with log := s.log ++ [.resolve thing x] }, hs, ?_⟩
  have hund : DataType.eq .undefined .undefined = true := rfl
  obtain ⟨g1, g2, g3⟩ := resolve_attribute_gives A thing x
  simp only [eval, evalSymbol, M.bind_apply, M.catchErr, ctxResolve, hs, scopeLookup, List.find?_nil, Bool.false_eq_true,
    if_false, hA]
  cases h : A thing x with
  | value v => simp only [g1 v h, M.lift_apply, checkSymbol, hund, if_true, Access.given]
  | missing =>
    simp only [g2 h, isSymErr, Access.given]
    cases env.defaultValue with
    | none => simp [M.throw_apply]
    | some d => simp [M.pure_apply, M.lift_apply, checkSymbol, hund]
  | raises e =>
    simp only [g3 e h, hr e h, Access.given, M.throw_apply]

theorem eval_path_attr {env : Env} {A : Value → String → Access} (hA : env.resolver = resolveAttribute A)
    (i : Nat) (n : String) (hr : ∀ e, A (.obj i) n = .raises e → isSymErr e = false) (s : St) (hs : s.scopes = []) :
    ∃ s', s'.scopes = [] ∧ evalGetAttr env (.obj i) n s =
      ((A (.obj i) n).given env (.eng (.attributeResolution n)), s') := by
  refine ⟨{ s with log := s.log ++ [.resolve (.obj i) n] }, hs, ?_⟩
  obtain ⟨g1, g2, g3⟩ := resolve_attribute_gives A (.obj i) n
  have hra : resolveAttr env (.obj i) n = .error (.eng (.attributeResolution n)) := rfl
  simp only [evalGetAttr, hra, isAttrErr, if_true, ctxResolve, hs, scopeLookup, List.find?_nil, Bool.false_eq_true,
    if_false, hA]
  cases h : A (.obj i) n with
  | value v => simp only [g1 v h, Access.given]
  | missing =>
    simp only [g2 h, isSymErr, Access.given, if_true]
    cases env.defaultValue <;> rfl
  | raises e =>
    simp only [g3 e h, hr e h, Access.given, Bool.false_eq_true, if_false]

theorem eval_path {env : Env} {A : Value → String → Access} (hA : env.resolver = resolveAttribute A) (dc : DecCtx) (thing o : Value)
    (x m : String) (ns init : List String) (hl : x :: ns = init ++ [m]) (h : Leads A thing init o)
    (hr : ∀ e, A o m = .raises e → isSymErr e = false) (s : St) (hs : s.scopes = []) :
    ∃ s', s'.scopes = [] ∧ eval env dc thing (pathExpr x ns) s =
      ((A o m).given env (.eng (if init = [] then .symbolResolution m else .attributeResolution m)), s') := by
  induction init using List.reverseRecOn generalizing ns m o with
  | nil =>
    simp only [List.nil_append, List.cons.injEq] at hl
    obtain ⟨rfl, rfl⟩ := hl
    cases h
    exact eval_path_name hA dc thing x hr s hs
  | append_singleton init k ih =>
    obtain ⟨w, i, h1, h2, rfl⟩ := leads_snoc h
    obtain ⟨ns', rfl⟩ : ∃ ns', ns = ns' ++ [m] := by
      rcases List.eq_nil_or_concat ns with rfl | ⟨l, b, rfl⟩
      · have := congrArg List.length hl; simp at this
      · refine ⟨l, ?_⟩
        have h3 : (x :: l) ++ [b] = (init ++ [k]) ++ [m] := by simpa using hl
        have := List.append_inj_right' h3 rfl
        simpa using this
    have hl' : x :: ns' = init ++ [k] := by
      have h3 : (x :: ns') ++ [m] = (init ++ [k]) ++ [m] := by simpa using hl
      exact List.append_inj_left' h3 rfl
    obtain ⟨s1, hs1, he⟩ := ih w k ns' hl' h1 (by rw [h2]; intro e h; cases h)
    obtain ⟨s2, hs2, he2⟩ := eval_path_attr hA i m hr s1 hs1
    refine ⟨s2, hs2, ?_⟩
    rw [pathExpr_snoc]
    rw [h2] at he
    have hobj : (Access.value (.obj i)).given env (.eng (if init = [] then .symbolResolution k else .attributeResolution k)) =
        .ok (.obj i) := rfl
    rw [hobj] at he
    simp only [eval]
    rw [bind_ok' he]
    have hne : ¬ (Value.obj i = .none ∧ false = true) := by simp
    rw [if_neg hne, he2]
    simp

/-- **C77.** With `resolve_attribute`, the rule `x.n₁.….m` on an object gives what Python's path gives (as the engine sees the
value), through any number of objects; if the last attribute is missing, the default value or, without one, an error that names
it, SymbolResolutionError for a name and AttributeResolutionError after a dot; exceptions of the object are passed on. -/
theorem object_path {codec : LitCodec} {env : Env} {A : Value → String → Access} (hA : env.resolver = resolveAttribute A)
    (dct : DecCtx) (acts : List TextAct) (x m : String) (ns init : List String) (hn : ∀ n ∈ x :: ns, PlainName n)
    (ht : env.typeResolver x = .ok .undefined) (hl : x :: ns = init ++ [m]) :
    ∃ e, outcome codec env dct acts (pathText x ns) = .ok e ∧ ∀ (thing o : Value), Leads A thing init o → ∀ q : Proc,
      (∀ v, A o m = .value v → (q.evaluate env e thing).1 = .ok (newValue env v)) ∧
      (A o m = .missing → (q.evaluate env e thing).1 = match env.defaultValue with
        | some d => .ok (newValue env d)
        | none => .error (.eng (if init = [] then .symbolResolution m else .attributeResolution m))) ∧
      (∀ err, isSymErr err = false → A o m = .raises err → (q.evaluate env e thing).1 = .error err) := by
  obtain ⟨s0, hs, hout⟩ := outcome_of (env := env) (dct := dct) (acts := acts)
    (means_path (codec := codec) x ns (hn x (by simp)) fun n h => hn n (by simp [h]))
  obtain ⟨s1, hb⟩ := build_path (env := env) (dct := dct) ht ns s0 hs
  refine ⟨pathExpr x ns, by rw [hout, hb], fun thing o h q => ?_⟩
  have key : (∀ e, A o m = .raises e → isSymErr e = false) → (q.evaluate env (pathExpr x ns) thing).1 =
      (A o m).given env (.eng (if init = [] then .symbolResolution m else .attributeResolution m)) := by
    intro hr
    obtain ⟨s', -, he⟩ := eval_path hA env.decCtx thing o x m ns init hl h hr q.st.reset rfl
    simp only [Proc.evaluate, ruleEval, he]
  refine ⟨fun v hv => ?_, fun hv => ?_, fun err hs hv => ?_⟩
  · rw [key (by rw [hv]; intro e h; cases h), hv]; rfl
  · rw [key (by rw [hv]; intro e h; cases h), hv]; rfl
  · rw [key (by rw [hv]; intro e h; cases h; exact hs), hv]; rfl

/-! ### Objects whose attributes change -/

/-- **C77.** Objects that do not change: as above, in any history. -/
theorem still_objects (env : Env) (A : Value → String → Access) (e : Expr) (thing : Value) (q : Proc) :
    (q.evaluateW (.objects env (.still A)) env e thing).1 = (q.evaluate (env.asks (resolveAttribute A)) e thing).1 := by
  have e1 : q.evaluateW (.objects env (.still A)) (env.asks (resolveAttribute A)) e thing =
      q.evaluateW (.objects env (.still A)) env e thing := by
    simp only [Proc.evaluateW, ruleEvalW, evalW_resolver]
  rw [← e1]
  refine snapshot _ (env.asks (resolveAttribute A)) e thing q ?_
  intro h q' _ hq2
  clear hq2
  split
  · rename_i o n
    simp only [World.objects, resolveAttribute, Objects.resolve, Objects.still]
    cases A o n <;> rfl
  · exact fun _ => rfl
  · rfl
  · trivial

theorem readFrom_append (A : Objects) : ∀ (h h' : List Event) (acc : List (Value × String)),
    A.readFrom acc (h ++ h') = A.readFrom (A.readFrom acc h) h'
  | [], h', acc => rfl
  | .resolve o n :: h, h', acc => by simp only [List.cons_append, Objects.readFrom]; exact readFrom_append A h h' _
  | .call .. :: h, h', acc | .matched _ :: h, h', acc => by
    simp only [List.cons_append, Objects.readFrom]; exact readFrom_append A h h' _

theorem resolve_reads (A : Objects) (acc : List (Value × String)) (o : Value) (n : String) :
    (A.resolve acc o n).2 = acc ++ [(o, n)] ∨ (A.resolve acc o n).2 = acc ++ [(o, n), (o, n)] := by
  unfold Objects.resolve
  dsimp only
  split
  · exact .inl rfl
  · exact .inl rfl
  · exact .inr (by simp)

/-- every question is at least one reading and at most two, of the attribute asked for -/
theorem readFrom_counts (A : Objects) : ∀ (h : List Event) (acc : List (Value × String)),
    ∃ xs, A.readFrom acc h = acc ++ xs ∧
      ∀ n, h.countP (Event.asks n) ≤ xs.countP (·.2 == n) ∧ xs.countP (·.2 == n) ≤ 2 * h.countP (Event.asks n)
  | [], acc => ⟨[], by simp [Objects.readFrom], by simp⟩
  | .call .. :: h, acc | .matched _ :: h, acc => by
    obtain ⟨xs, h1, h2⟩ := readFrom_counts A h acc
    refine ⟨xs, by simp only [Objects.readFrom, h1], fun n => ?_⟩
    rw [List.countP_cons]
    simpa [Event.asks] using h2 n
  | .resolve o m :: h, acc => by
    obtain ⟨xs, h1, h2⟩ := readFrom_counts A h (A.resolve acc o m).2
    simp only [Objects.readFrom, h1]
    rcases resolve_reads A acc o m with hr | hr
    · refine ⟨[(o, m)] ++ xs, by rw [hr]; simp, fun n => ?_⟩
      have := h2 n
      rw [List.countP_cons, List.countP_append]
      by_cases hm : m = n
      · simp [hm, Event.asks]; omega
      · simp [hm, Event.asks]; omega
    · refine ⟨[(o, m), (o, m)] ++ xs, by rw [hr]; simp, fun n => ?_⟩
      have := h2 n
      rw [List.countP_cons, List.countP_append]
      by_cases hm : m = n
      · simp [hm, Event.asks]; omega
      · simp [hm, Event.asks]; omega

/-- **C77.** One evaluation of a rule without comprehensions reads an attribute at most twice as often as its name is written,
whatever the objects do. -/
theorem reads_at_most (A : Objects) (codec : LitCodec) (env : Env) (dct : DecCtx) (text : String) (p p' : Proc) (e : Expr)
    (h : p.rule codec env dct text = (.ok e, p')) (raw : Raw) (c : Option String)
    (hp : (parseText codec p.line text).out = .ok (raw, c)) (hl : raw.loopFree = true) (thing : Value) (q : Proc)
    (n : String) : ∃ xs, A.reads (q.evaluateW (.objects env A) env e thing).2.st.log = A.reads q.st.log ++ xs ∧
      xs.countP (·.2 == n) ≤ 2 * ((raw.uses []).count ⟨n, false, false⟩ + raw.attrNames.count n) := by
  obtain ⟨evs, h1, h2⟩ := lookups_at_most_written_world (.objects env A) codec env dct text p p' e h raw c hp hl thing q n
  obtain ⟨xs, h3, h4⟩ := readFrom_counts A evs (A.reads q.st.log)
  refine ⟨xs, ?_, (h4 n).2.trans (by omega)⟩
  rw [h1]
  simp only [Objects.reads] at h3 ⊢
  rw [readFrom_append, h3]

/-- **C77.** An attribute that is there is read twice, and the second reading counts: the rule `x` gives what the second reading
gives, and if that fails with AttributeError, so does the evaluation (this is not an EngineError). -/
theorem second_reading {codec : LitCodec} {env : Env} (A : Objects) (dct : DecCtx) (acts : List TextAct) (x : String)
    (hx : PlainName x) (ht : env.typeResolver x = .ok .undefined) :
    ∃ e, outcome codec env dct acts (pathText x []) = .ok e ∧ ∀ (thing : Value) (q : Proc) (v : Value),
      A.access (A.reads q.st.log) thing x = .value v →
      A.reads (q.evaluateW (.objects env A) env e thing).2.st.log = A.reads q.st.log ++ [(thing, x), (thing, x)] ∧
      (∀ w, A.access (A.reads q.st.log ++ [(thing, x)]) thing x = .value w →
        (q.evaluateW (.objects env A) env e thing).1 = .ok (newValue env w)) ∧
      (A.access (A.reads q.st.log ++ [(thing, x)]) thing x = .missing →
        (q.evaluateW (.objects env A) env e thing).1 = .error (.py .attributeError)) := by
  obtain ⟨s0, hs, hout⟩ := outcome_of (env := env) (dct := dct) (acts := acts)
    (means_path (codec := codec) x [] hx (by simp))
  obtain ⟨s1, hb⟩ := build_path (env := env) (dct := dct) ht [] s0 hs
  refine ⟨pathExpr x [], by rw [hout, hb], fun thing q v hv => ?_⟩
  have hund : DataType.eq .undefined .undefined = true := rfl
  have hres : A.resolve (A.reads q.st.log) thing x =
      ((A.access (A.reads q.st.log ++ [(thing, x)]) thing x).get, A.reads q.st.log ++ [(thing, x), (thing, x)]) := by
    simp [Objects.resolve, hv, Access.has]
  have hst : (q.evaluateW (.objects env A) env (pathExpr x []) thing).2.st.log = q.st.log ++ [.resolve thing x] := by
    simp only [Proc.evaluateW, ruleEvalW, pathExpr, List.foldl_nil, evalW, evalSymbolW, M.bind_apply, M.catchErr, ctxResolveW,
      St.reset, scopeLookup, List.find?_nil, Bool.false_eq_true, if_false, World.objects, hres]
    cases A.access (A.reads q.st.log ++ [(thing, x)]) thing x with
    | value w => rfl
    | missing => rfl
    | raises err =>
      simp only [Access.get]
      cases isSymErr err <;> cases env.defaultValue <;> rfl
  refine ⟨?_, fun w hw => ?_, fun hw => ?_⟩
  · rw [hst]
    simp only [Objects.reads] at hres ⊢
    rw [readFrom_append]
    simp only [Objects.readFrom, hres]
  all_goals
    simp only [Proc.evaluateW, ruleEvalW, pathExpr, List.foldl_nil, evalW, evalSymbolW, M.bind_apply, M.catchErr, ctxResolveW,
      St.reset, scopeLookup, List.find?_nil, Bool.false_eq_true, if_false, World.objects, hres, hw, Access.get]
  · simp only [M.lift_apply, checkSymbol, hund, if_true]
  · rfl

/-! ### Witnesses -/

/-- objects: a point with coordinates, a line with two points; every value has a method `title` -/
def sampleObjects : Value → String → Access
  | .obj 0, "x" => .value (.int 1)
  | .obj 0, "y" => .value (.str "b")
  | .obj 1, "start" => .value (.obj 0)
  | .obj 1, "broken" => .raises (.py .zeroDivisionError)
  | .obj 2, "line" => .value (.obj 1)
  | .obj 2, "data" => .value (dictOf [("k", .str "v")])
  | .str _, "title" => .value (.userFn 1)
  | _, _ => .missing

/-- the sample context with `resolve_attribute` -/
def objectEnv : Env := sampleEnv.asks (resolveAttribute sampleObjects)

/-- a rule on an object of the sample -/
def sampleObject (text : String) (i : Nat) : Option (Except Err Value) :=
  match Proc.new.rule plainCodec objectEnv .default text with
  | (.ok e, p) => some (p.evaluate objectEnv e (.obj i)).1
  | _ => none

/-- Paths through objects; the items of a dictionary that an object holds cannot be reached with a dot (with the default resolver
they can), but the Python attributes of any value can. -/
theorem objects_witness :
    sampleObject "line.start.y" 2 = some (.ok (.str "b")) ∧
    sampleObject "line.start.z" 2 = some (.error (.eng (.attributeResolution "z"))) ∧
    sampleObject "z" 2 = some (.error (.eng (.symbolResolution "z"))) ∧
    sampleObject "line.broken" 2 = some (.error (.py .zeroDivisionError)) ∧
    sampleObject "data.k" 2 = some (.error (.eng (.attributeResolution "k"))) ∧
    sampleObject "data['k']" 2 = some (.ok (.str "v")) ∧
    sampleObject "line.start.y.title" 2 = some (.ok (.userFn 1)) := by
  refine ⟨?_, ?_, ?_, ?_, ?_, ?_, ?_⟩ <;> decide +kernel

/-- the hypotheses of `object_path` are met, with a path of two objects -/
example : objectEnv.resolver = resolveAttribute sampleObjects ∧ (∀ n ∈ ["line", "start", "y"], PlainName n) ∧
    objectEnv.typeResolver "line" = .ok .undefined ∧ "line" :: ["start", "y"] = ["line", "start"] ++ ["y"] ∧
    Leads sampleObjects (.obj 2) ["line", "start"] (.obj 0) ∧ sampleObjects (.obj 0) "y" = .value (.str "b") := by
  refine ⟨rfl, ?_, rfl, rfl, .step rfl (.step rfl (.here _)), rfl⟩
  intro n hn
  simp only [List.mem_cons, List.not_mem_nil, or_false] at hn
  rcases hn with rfl | rfl | rfl <;> exact ⟨⟨by decide, by decide⟩, by decide⟩

/-- objects whose attributes are there only on the first reading -/
def fadingObjects : Objects := ⟨fun h o n => if (o, n) ∈ h then .missing else .value (.str "here")⟩

/-- An attribute that is gone between `hasattr` and `getattr` makes the evaluation raise AttributeError. -/
theorem fading_witness (codec : LitCodec) : ∃ e, outcome codec sampleEnv .default [] (pathText "x" []) = .ok e ∧
    (Proc.new.evaluateW (.objects sampleEnv fadingObjects) sampleEnv e .none).1 = .error (.py .attributeError) := by
  obtain ⟨e, h1, h2⟩ := second_reading (codec := codec) (env := sampleEnv) fadingObjects .default [] "x"
    ⟨⟨by decide, by decide⟩, by decide⟩ rfl
  exact ⟨e, h1, (h2 .none Proc.new (.str "here") rfl).2.2 rfl⟩

/-- the hypotheses of `object_as_dict` are met by the rule `(x) + (y)` on the point and a dictionary with its coordinates -/
example (codec : LitCodec) : ∃ e p' raw c, Proc.new.rule codec objectEnv .default (String.ofList (binText ['x'] .ADD ['y'])) = (.ok e, p') ∧
    (parseText codec Proc.new.line (String.ofList (binText ['x'] .ADD ['y']))).out = .ok (raw, c) ∧ raw.attrNames = [] ∧
    ∀ n, ⟨n, false, false⟩ ∈ raw.uses [] → sampleObjects (.obj 0) n =
      match [("x", Value.int 1), ("y", .str "b")].find? (fun q => q.1 == n) with
      | some q => .value q.2
      | none => .missing := by
  have hx : Means codec ['x'] (.sym "x" false) := means_sym x_word
  have hy : Means codec ['y'] (.sym "y" false) := means_sym ⟨by decide, by decide⟩
  have h := means_bin hx hy .ADD (by decide)
  refine ⟨_, _, _, _, Prod.ext ((rule_of_means h).trans rfl) rfl, h 1, rfl, ?_⟩
  intro n hn
  simp only [Raw.uses, List.not_mem_nil, decide_false, Bool.and_false, List.mem_append, List.mem_singleton, Use.mk.injEq,
    and_true] at hn
  rcases hn with rfl | rfl <;> rfl

end RE
