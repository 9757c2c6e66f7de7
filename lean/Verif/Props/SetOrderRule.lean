import Verif.Props.SetOrderCalls
import Verif.Props.Gradual

/-!
# Sets have no order: rules (C85)
-/

set_option linter.unusedSimpArgs false
set_option linter.unusedVariables false
set_option linter.unusedSectionVars false

namespace RE

/-! ### Operators on sets, items, slices -/

theorem shuffled_opBitSet {off : TzDb} {op : BitOp} {xs xs' : List Value} {b b' : Value} (hx : xs.Perm xs')
    (h : Agrees off b b') : InStep Shuffled (opBitSet off op xs b) (opBitSet off op xs' b') := by
  simp only [opBitSet, shuffled_fromValue h.shuffled h.left]
  rcases fromValue b with e | t
  · exact .error e
  simp only [except_ok_bind]
  split
  · cases h.shuffled with
    | same v hv => cases b <;> first | exact .error _ | simp [Value.isFlat] at hv
    | seq => exact .error _
    | map => exact .error _
    | @set ys ys' hy =>
      have hin : ∀ {zs zs' : List Value} (x : Value), zs.Perm zs' →
          (zs'.any fun z => pyEq off z x) = zs.any fun z => pyEq off z x := fun x hp => hp.symm.any_eq
      cases op with
      | lsh => exact .error _
      | rsh => exact .error _
      | and =>
        simp only [bitSet, except_ok_bind]
        refine .ok (.set ?_)
        rw [funext fun x => hin x hy]
        exact hx.filter _
      | or =>
        simp only [bitSet, except_ok_bind]
        refine .ok (.set (hx.append ?_))
        rw [funext fun x => congrArg (!·) (hin x hx)]
        exact hy.filter _
      | xor =>
        simp only [bitSet, except_ok_bind]
        refine .ok (.set (.append ?_ ?_))
        · rw [funext fun x => congrArg (!·) (hin x hy)]
          exact hx.filter _
        · rw [funext fun x => congrArg (!·) (hin x hx)]
          exact hy.filter _
  · exact .error _

/-- both lookups fail, or give related values -/
def AgreeOption (o o' : Option Value) : Prop := (o = none ∧ o' = none) ∨ ∃ a b, o = some a ∧ o' = some b ∧ Shuffled a b

theorem AgreeOption.same (o : Option Value) : AgreeOption o o := by
  cases o with
  | none => exact .inl ⟨rfl, rfl⟩
  | some v => exact .inr ⟨v, v, rfl, rfl, .refl v⟩

theorem mapLookup_shuffled {off : TzDb} (k : Value) : ∀ {xs ys : List (Value × Value)}, ShuffledItems xs ys →
    AgreeOption (mapLookup off xs k) (mapLookup off ys k)
  | _, _, .nil => .same _
  | _, _, .cons k' h hs => by
    simp only [mapLookup, List.find?_cons]
    rcases hp : pyEq off k' k
    · exact mapLookup_shuffled k hs
    · exact .inr ⟨_, _, rfl, rfl, h⟩

theorem index_shuffled {xs ys : List Value} (h : ShuffledAll xs ys) (i : Int) :
    AgreeOption ((pyIndex xs.length i).bind fun n => xs[n]?) ((pyIndex ys.length i).bind fun n => ys[n]?) := by
  rw [h.length]
  rcases pyIndex xs.length i with _ | n
  · exact .inl ⟨rfl, rfl⟩
  · exact h.get n

theorem shuffled_asInt {a b : Value} (h : Shuffled a b) : b.asInt = a.asInt := by cases h <;> rfl

theorem shuffled_opGetItem {off : TzDb} {c c' i i' : Value} (h : Agrees off c c') (hi : Agrees off i i') :
    InStep AgreeOption (opGetItem off c i) (opGetItem off c' i') := by
  have hc : itemCheck c' i' = itemCheck c i := by
    cases h.shuffled with
    | seq k => cases k <;> simp only [itemCheck, shuffled_assertInteger hi.shuffled]
    | same v hv => cases c <;> first | rfl | simp only [itemCheck, shuffled_assertInteger hi.shuffled]
    | set => rfl
    | map => rfl
  simp only [opGetItem, hc]
  rcases itemCheck c i with e | u
  · exact .error e
  simp only [except_ok_bind]
  cases h.shuffled with
  | same v hv =>
    cases c <;> first
      | exact .error _
      | (simp only [pyGetItem, shuffled_toInt hi.shuffled]; exact .ok (.same _))
      | simp [Value.isFlat] at hv
  | set => exact .error _
  | map k hk =>
    simp only [pyGetItem, shuffled_hashable hi.shuffled]
    split
    · rename_i hh
      rw [shuffled_eq hi.shuffled hi.left hh]
      exact .ok (mapLookup_shuffled _ hk)
    · exact .error _
  | seq k hk =>
    cases k
    all_goals simp only [pyGetItem, shuffled_toInt hi.shuffled, shuffled_asInt hi.shuffled]
    all_goals first
      | exact .ok (index_shuffled hk _)
      | skip
    all_goals
      rcases i.asInt with _ | j
      · exact .error _
      · exact .ok (index_shuffled hk _)

theorem shuffled_sliceArg {a b : Value} (h : Shuffled a b) : sliceArg b = sliceArg a := by
  cases h <;> rfl

theorem shuffled_getSlice {c c' : Value} {a b : Option Int} (h : Shuffled c c') :
    InStep Shuffled (pyGetSlice c a b) (pyGetSlice c' a b) := by
  cases h with
  | same v hv =>
    cases c <;> first
      | exact .error _
      | exact .ok (.refl _)
  | set => exact .error _
  | map => exact .error _
  | seq k hk =>
    refine .ok (.seq k ?_)
    simp only [pySlice, hk.length]
    exact (hk.take _).drop _

/-! ### Computations -/

/-- the threads hold the same groups, and variables of the same names with values that differ in the order of sets -/
structure Alongside (off : TzDb) (s s' : St) : Prop where
  groups : s'.groups = s.groups
  scopes : List.Forall₂ (fun a b : Assignment => b.name = a.name ∧ Shuffled a.value b.value) s.scopes s'.scopes
  left : s.Ok off
  right : s'.Ok off

/-- from such threads, the computations give related results or raise the same exception, and leave such threads -/
structure Tandem (off : TzDb) {α β : Type} (Q : α → β → Prop) (m : M α) (m' : M β) : Prop where
  out : ∀ s s', Alongside off s s' → InStep Q (m s).1 (m' s').1 ∧ Alongside off (m s).2 (m' s').2

section
variable {off : TzDb} {α β α' β' : Type} {Q : α → β → Prop} {Q' : α' → β' → Prop}

theorem Tandem.lift {x : Except Err α} {x' : Except Err β} (h : InStep Q x x') : Tandem off Q (M.lift x) (M.lift x') :=
  ⟨fun _ _ hs => ⟨h, hs⟩⟩
theorem Tandem.pure {a : α} {b : β} (h : Q a b) : Tandem off Q (Pure.pure a : M α) (Pure.pure b) := .lift (.ok h)
theorem Tandem.throw {e : Err} : Tandem off Q (M.throw e : M α) (M.throw e) := .lift (.error e)
theorem Tandem.same {x x' : Except Err α} (h : x' = x) : Tandem off (fun a b => b = a) (M.lift x) (M.lift x') :=
  h ▸ .lift (.same x')
theorem Tandem.bind {m : M α} {m' : M β} {f : α → M α'} {f' : β → M β'} (hm : Tandem off Q m m')
    (hf : ∀ a b, Q a b → Tandem off Q' (f a) (f' b)) : Tandem off Q' (m >>= f) (m' >>= f') := by
  refine ⟨fun s s' hs => ?_⟩
  obtain ⟨h1, h2⟩ := hm.out s s' hs
  rw [M.bind_apply, M.bind_apply]
  rcases hx : m s with ⟨r, s1⟩
  rcases hy : m' s' with ⟨r', s1'⟩
  rw [hx, hy] at h1 h2
  cases h1 with
  | error e => exact ⟨.error e, h2⟩
  | ok h => exact (hf _ _ h).out s1 s1' h2
theorem Tandem.ite {c : Prop} [Decidable c] {x y : M α} {x' y' : M β} (hx : Tandem off Q x x') (hy : Tandem off Q y y') :
    Tandem off Q (if c then x else y) (if c then x' else y') := by split <;> assumption
theorem Tandem.test {c c' : Prop} [Decidable c] [Decidable c'] {x y : M α} {x' y' : M β} (hc : c' ↔ c)
    (hx : Tandem off Q x x') (hy : Tandem off Q y y') : Tandem off Q (if c then x else y) (if c' then x' else y') := by
  by_cases h : c
  · rw [if_pos h, if_pos (hc.2 h)]; exact hx
  · rw [if_neg h, if_neg (h ∘ hc.1)]; exact hy
theorem Tandem.mono {m : M α} {m' : M β} {R : α → β → Prop} (h : Tandem off Q m m') (hr : ∀ a b, Q a b → R a b) :
    Tandem off R m m' := ⟨fun s s' hs => by
  obtain ⟨h1, h2⟩ := h.out s s' hs
  refine ⟨?_, h2⟩
  revert h1
  generalize (m s).1 = x
  generalize (m' s').1 = y
  intro h1
  cases h1 with
  | error e => exact .error e
  | ok h => exact .ok (hr _ _ h)⟩
theorem Tandem.withScope {x : String} {v w : Value} {t : DataType} {m : M α} {m' : M β} (hv : Agrees off v w)
    (h : Tandem off Q m m') : Tandem off Q (M.withScope ⟨x, v, t⟩ m) (M.withScope ⟨x, w, t⟩ m') := by
  refine ⟨fun s s' hs => ?_⟩
  have hs' : Alongside off { s with scopes := s.scopes ++ [⟨x, v, t⟩] } { s' with scopes := s'.scopes ++ [⟨x, w, t⟩] } := by
    refine ⟨hs.groups, List.rel_append hs.scopes (.cons ⟨rfl, hv.shuffled⟩ .nil), ⟨fun a ha => ?_, hs.left.groups⟩,
      ⟨fun a ha => ?_, hs.right.groups⟩⟩
    · rcases List.mem_append.1 ha with ha | ha
      · exact hs.left.scopes a ha
      · rw [List.mem_singleton] at ha; subst ha; exact hv.left
    · rcases List.mem_append.1 ha with ha | ha
      · exact hs.right.scopes a ha
      · rw [List.mem_singleton] at ha; subst ha; exact hv.right
  obtain ⟨h1, h2⟩ := h.out _ _ hs'
  have hd : ∀ {l l' : List Assignment}, List.Forall₂ (fun a b : Assignment => b.name = a.name ∧ Shuffled a.value b.value) l l' →
      List.Forall₂ (fun a b : Assignment => b.name = a.name ∧ Shuffled a.value b.value) l.dropLast l'.dropLast := by
    intro l l' hl
    rw [List.dropLast_eq_take, List.dropLast_eq_take, hl.length_eq]
    exact List.forall₂_take _ hl
  exact ⟨h1, ⟨h2.groups, hd h2.scopes, ⟨fun a ha => h2.left.scopes a (List.dropLast_subset _ ha), h2.left.groups⟩,
    ⟨fun a ha => h2.right.scopes a (List.dropLast_subset _ ha), h2.right.groups⟩⟩⟩
theorem Tandem.catch {m : M α} {m' : M β} {f : Err → M α} {f' : Err → M β} (hm : Tandem off Q m m')
    (hf : ∀ e, Tandem off Q (f e) (f' e)) : Tandem off Q (M.catchErr m f) (M.catchErr m' f') := by
  refine ⟨fun s s' hs => ?_⟩
  obtain ⟨h1, h2⟩ := hm.out s s' hs
  unfold M.catchErr
  rcases hx : m s with ⟨r, s1⟩
  rcases hy : m' s' with ⟨r', s1'⟩
  rw [hx, hy] at h1 h2
  cases h1 with
  | error e => exact (hf e).out s1 s1' h2
  | ok h => exact ⟨.ok h, h2⟩
theorem Tandem.wf {m m' : M Value} (h : Tandem off Shuffled m m') (hl : Keeps.Val off m) (hr : Keeps.Val off m') :
    Tandem off (Agrees off) m m' := ⟨fun s s' hs => by
  obtain ⟨h1, h2⟩ := h.out s s' hs
  exact ⟨h1.wf (hl.out s hs.left).1 (hr.out s' hs.right).1, h2⟩⟩
end

/-! ### Names and attributes -/

/-- what the resolver gives does not depend on the order of sets -/
def Orderly (env : Env) : Prop :=
  ∀ o o' name, Agrees env.utcoffset o o' → InStep Shuffled (env.resolver o name) (env.resolver o' name)

theorem scopeLookup_shuffled (name : String) : ∀ {l l' : List Assignment},
    List.Forall₂ (fun a b : Assignment => b.name = a.name ∧ Shuffled a.value b.value) l l' →
    (scopeLookup l name = none ∧ scopeLookup l' name = none) ∨
      ∃ a b, scopeLookup l name = some a ∧ scopeLookup l' name = some b ∧ Shuffled a.value b.value
  | _, _, .nil => .inl ⟨rfl, rfl⟩
  | a :: l, b :: l', .cons h hs => by
    have ih := scopeLookup_shuffled name hs
    simp only [scopeLookup, List.find?_cons, h.1] at ih ⊢
    rcases hn : (a.name == name)
    · exact ih
    · exact .inr ⟨a, b, rfl, rfl, h.2⟩

section
variable {env : Env} (hd : env.DataOk) (ho : Orderly env) {thing thing' : Value} (ht : Agrees env.utcoffset thing thing')
include hd ho ht

theorem ctxResolve_tandem (name : String) (b : Bool) :
    Tandem env.utcoffset (Agrees env.utcoffset) (ctxResolve env thing name b) (ctxResolve env thing' name b) := by
  refine Tandem.wf ⟨fun s s' hs => ?_⟩ (ctxResolve_wf hd ht.left ..) (ctxResolve_wf hd ht.right ..)
  unfold ctxResolve
  split
  · rw [hs.groups]
    rcases builtinValue env s.groups name with _ | v
    · exact ⟨.error _, hs⟩
    · exact ⟨.ok (.refl v), hs⟩
  · rcases scopeLookup_shuffled name hs.scopes with ⟨h1, h2⟩ | ⟨x, y, h1, h2, h⟩
    · rw [h1, h2]
      exact ⟨ho _ _ _ ht, ⟨hs.groups, hs.scopes, ⟨hs.left.scopes, hs.left.groups⟩, ⟨hs.right.scopes, hs.right.groups⟩⟩⟩
    · rw [h1, h2]
      exact ⟨.ok h, hs⟩

theorem evalSymbol_tandem (name : String) (rt : DataType) (b : Bool) :
    Tandem env.utcoffset (Agrees env.utcoffset) (evalSymbol env thing name rt b) (evalSymbol env thing' name rt b) := by
  refine Tandem.wf ?_ (evalSymbol_keeps hd ht.left ..) (evalSymbol_keeps hd ht.right ..)
  unfold evalSymbol
  refine Tandem.bind (Tandem.catch (ctxResolve_tandem hd ho ht ..) fun e => ?_) fun v w h =>
    .lift (checkSymbol_shuffled _ _ (newValue_agrees h).shuffled (newValue_agrees h).left)
  split
  · exact .pure (.refl (hd.default _ ‹_›))
  · exact .throw

theorem evalGetAttr_tandem {name : String} (hn : plainAttribute name) :
    Tandem env.utcoffset (Agrees env.utcoffset) (evalGetAttr env thing name) (evalGetAttr env thing' name) := by
  refine Tandem.wf ⟨fun s s' hs => ?_⟩ (evalGetAttr_keeps hd ht.left name) (evalGetAttr_keeps hd ht.right name)
  have hc := (ctxResolve_tandem hd ho ht name false).out s s' hs
  have ha := resolveAttr_shuffled ht hn
  unfold evalGetAttr
  revert ha
  generalize resolveAttr env thing name = x
  generalize resolveAttr env thing' name = y
  intro ha
  cases ha with
  | ok h => exact ⟨.ok (newValue_agrees h).shuffled, hs⟩
  | error e =>
    simp only
    split
    · revert hc
      generalize ctxResolve env thing name false s = x
      generalize ctxResolve env thing' name false s' = y
      obtain ⟨x, s1⟩ := x
      obtain ⟨y, s1'⟩ := y
      rintro ⟨h1, h2⟩
      cases h1 with
      | ok h => exact ⟨.ok (newValue_agrees h).shuffled, h2⟩
      | error e' =>
        simp only
        split
        · split
          · exact ⟨.ok (.refl _), h2⟩
          · exact ⟨.error _, h2⟩
        · exact ⟨.error _, h2⟩
    · exact ⟨.error _, hs⟩
end

/-! ### Nodes -/

/-- the shuffled values of related computations -/
abbrev Tandem.Val (off : TzDb) (m m' : M Value) : Prop := Tandem off (Agrees off) m m'

section
variable {off : TzDb}

theorem opFuzzy_tandem {env : Env} {x n : Bool} {a a' b b' : Value} (h : Shuffled a a') (h' : Shuffled b b') :
    Tandem off Shuffled (opFuzzy env x n a b) (opFuzzy env x n a' b') := by
  have hr : ∀ g : Value, g.WF off → Tandem off Shuffled
      (do recordMatch g; Pure.pure (.bool (!n)) : M Value) (do recordMatch g; Pure.pure (.bool (!n))) := by
    intro g hg
    refine Tandem.bind (Q := fun _ _ => True) ⟨fun s s' hs => ⟨.ok trivial, ?_⟩⟩ fun _ _ _ => .pure (.refl _)
    exact ⟨rfl, hs.scopes, ⟨hs.left.scopes, hg⟩, ⟨hs.right.scopes, hg⟩⟩
  have key : ∀ a b : Value, a.isFlat = true → b.isFlat = true → Tandem off Shuffled (opFuzzy env x n a b) (opFuzzy env x n a b) := by
    intro a b _ _
    unfold opFuzzy
    repeat' split
    all_goals first
      | exact .throw
      | exact .pure (.refl _)
      | skip
    refine hr _ (tuple_wf fun y hy => ?_)
    obtain ⟨g, -, rfl⟩ := List.mem_map.1 hy
    cases g <;> simp [Value.WF]
  cases h' with
  | same v hv =>
    cases h with
    | same w hw => exact key _ _ hw hv
    | _ =>
      cases b <;> simp only [opFuzzy] <;> first
        | exact .throw
        | exact .pure (.refl _)
        | (split <;> first | exact .throw | exact .pure (.refl _))
  | _ => exact .throw

theorem shuffled_setFold {env : Env} {op : BitOp} {r r' : M Value} (hr : Tandem.Val env.utcoffset r r') :
    ∀ {a a' : Value}, Shuffled a a' → Tandem env.utcoffset Shuffled
      (match a with
        | .set xs => do
          let b ← r
          M.lift (opBitSet env.utcoffset op xs b)
        | _ => M.throw .mismatch : M Value)
      (match a' with
        | .set xs => do
          let b ← r'
          M.lift (opBitSet env.utcoffset op xs b)
        | _ => M.throw .mismatch) := by
  intro a a' h
  cases h with
  | set h => exact hr.bind fun b b' hb => .lift (shuffled_opBitSet h hb)
  | seq => exact .throw
  | map => exact .throw
  | same v hv => cases a <;> first | exact .throw | simp [Value.isFlat] at hv

theorem evalBin_tandem {env : Env} {dc : DecCtx} {op : BinOp} {l l' r r' : M Value}
    (hl : Tandem.Val env.utcoffset l l') (hr : Tandem.Val env.utcoffset r r') :
    Tandem env.utcoffset Shuffled (evalBin env dc op l r) (evalBin env dc op l' r') := by
  have same : ∀ {x x' : Except Err Value}, x' = x → Tandem env.utcoffset Shuffled (M.lift x) (M.lift x') := by
    intro x x' h
    subst h
    cases x' with
    | ok v => exact .lift (.ok (.refl v))
    | error e => exact .lift (.error e)
  have bool : ∀ {b c : Bool}, c = b → Tandem env.utcoffset Shuffled (Pure.pure (Value.bool b)) (Pure.pure (Value.bool c)) := by
    rintro b _ rfl; exact .pure (.refl _)
  have bits : ∀ op : BitOp, Tandem env.utcoffset Shuffled (evalBin env dc (.bit op) l r) (evalBin env dc (.bit op) l' r') := by
    intro op
    refine hl.bind fun a a' ha => (Tandem.same (shuffled_fromValue ha.shuffled ha.left)).bind fun t _ ht => ?_
    subst ht
    refine .ite ?_ (shuffled_setFold hr ha.shuffled)
    exact (Tandem.same (shuffled_assertNatural ha.shuffled)).bind fun _ _ _ => hr.bind fun b b' hb =>
      same (shuffled_opBitNat ha.shuffled hb.shuffled)
  cases op with
  | add => exact hl.bind fun a a' ha => hr.bind fun b b' hb => same (shuffled_opAdd ha.shuffled hb.shuffled)
  | sub => exact hl.bind fun a a' ha => hr.bind fun b b' hb => same (shuffled_opSub ha.shuffled hb.shuffled)
  | arith op =>
    exact hl.bind fun a a' ha => (Tandem.same (shuffled_assertNumeric ha.shuffled)).bind fun _ _ _ =>
      hr.bind fun b b' hb => (Tandem.same (shuffled_assertNumeric hb.shuffled)).bind fun _ _ _ =>
        same (shuffled_opArith ha.shuffled hb.shuffled)
  | bit op => exact bits op
  | shift op => exact bits op
  | and =>
    refine hl.bind fun a a' ha => ?_
    rw [shuffled_truthy ha.shuffled]
    exact .ite (hr.bind fun b b' hb => bool (shuffled_truthy hb.shuffled)) (bool rfl)
  | or =>
    refine hl.bind fun a a' ha => ?_
    rw [shuffled_truthy ha.shuffled]
    exact .ite (bool rfl) (hr.bind fun b b' hb => bool (shuffled_truthy hb.shuffled))
  | eq => exact hl.bind fun a a' ha => hr.bind fun b b' hb => bool (shuffled_opEq ha.shuffled hb.shuffled)
  | ne => exact hl.bind fun a a' ha => hr.bind fun b b' hb => bool (shuffled_opNe ha.shuffled hb.shuffled)
  | cmp op =>
    exact hl.bind fun a a' ha => hr.bind fun b b' hb =>
      (Tandem.same (shuffled_opCmp ha.shuffled hb.shuffled)).bind fun _ _ h => bool h
  | fuzzy x n =>
    refine hl.bind fun a a' ha => ?_
    cases ha.shuffled with
    | seq => exact .throw
    | set => exact .throw
    | map => exact .throw
    | same v hv =>
      cases a <;> first
        | exact .throw
        | exact hr.bind fun b b' hb => opFuzzy_tandem (.refl _) hb.shuffled

theorem seqM_tandem : ∀ {ms ms' : List (M Value)}, List.Forall₂ (Tandem.Val off) ms ms' →
    Tandem off ShuffledAll (seqM ms) (seqM ms')
  | [], _, .nil => .pure .nil
  | m :: ms, m' :: ms', .cons h hs =>
    h.bind fun _ _ hv => (seqM_tandem hs).bind fun _ _ hvs => .pure (.cons hv.shuffled hvs)

theorem setM_tandem : ∀ {ms ms' : List (M Value)} (acc : List Value), List.Forall₂ (Tandem.Val off) ms ms' →
    Tandem off (fun a b => b = a) (setM off acc ms) (setM off acc ms')
  | [], _, acc, .nil => .pure rfl
  | m :: ms, m' :: ms', acc, .cons h hs => by
    unfold setM
    refine h.bind fun v w hv => ?_
    rw [shuffled_hashable hv.shuffled]
    split
    · rename_i hh
      rw [shuffled_eq hv.shuffled hv.left hh]
      exact setM_tandem _ hs
    · exact .throw

/-- keys are the same, values related -/
abbrev PairAcc (off : TzDb) (l l' : List (Value × M Value)) : Prop :=
  List.Forall₂ (fun p q : Value × M Value => q.1 = p.1 ∧ Tandem.Val off p.2 q.2) l l'

theorem mapInsert_tandem {k : Value} {m m' : M Value} (h : Tandem.Val off m m') : ∀ {l l' : List (Value × M Value)},
    PairAcc off l l' → PairAcc off (mapInsert off l k m) (mapInsert off l' k m')
  | [], _, .nil => .cons ⟨rfl, h⟩ .nil
  | (k', v) :: l, (k'', v') :: l', .cons hp hs => by
    obtain ⟨rfl, hv⟩ := hp
    simp only [mapInsert]
    split
    · exact .cons ⟨rfl, h⟩ hs
    · exact .cons ⟨rfl, hv⟩ (mapInsert_tandem h hs)

theorem mapKeysM_tandem : ∀ {ms ms' : List (M Value × M Value)} {acc acc' : List (Value × M Value)}, PairAcc off acc acc' →
    List.Forall₂ (fun p q : M Value × M Value => Tandem.Val off p.1 q.1 ∧ Tandem.Val off p.2 q.2) ms ms' →
    Tandem off (PairAcc off) (mapKeysM off acc ms) (mapKeysM off acc' ms')
  | [], _, _, _, ha, .nil => .pure ha
  | (k, v) :: ms, (k', v') :: ms', acc, acc', ha, .cons h hs => by
    unfold mapKeysM
    refine h.1.bind fun key key' hk => (Tandem.same (shuffled_fromValue hk.shuffled hk.left)).bind fun t _ ht => ?_
    subst ht
    refine .ite .throw ?_
    rw [shuffled_hashable hk.shuffled]
    split
    · rename_i hh
      rw [shuffled_eq hk.shuffled hk.left hh]
      exact mapKeysM_tandem (mapInsert_tandem h.2 ha) hs
    · exact .throw

theorem mapValsM_tandem : ∀ {l l' : List (Value × M Value)}, PairAcc off l l' →
    Tandem off ShuffledItems (mapValsM l) (mapValsM l')
  | [], _, .nil => .pure .nil
  | (k, m) :: l, (k', m') :: l', .cons h hs => by
    obtain ⟨rfl, hv⟩ := h
    exact hv.bind fun _ _ hv => (mapValsM_tandem hs).bind fun _ _ hvs => .pure (.cons _ hv.shuffled hvs)

theorem compM_tandem {var : String} {c c' r r' : M Value} (hc : Tandem.Val off c c') (hr : Tandem.Val off r r') :
    ∀ {xs ys : List Value}, ShuffledAll xs ys → (∀ x ∈ xs, x.WF off) → (∀ y ∈ ys, y.WF off) →
      Tandem off ShuffledAll (compM var c r xs) (compM var c' r' ys)
  | [], _, .nil, _, _ => .pure .nil
  | x :: xs, y :: ys, .cons h hs, hx, hy => by
    unfold compM
    refine Tandem.bind (Q := AgreeOption) (Tandem.withScope ⟨h, hx x (by simp), hy y (by simp)⟩ (hc.bind fun a a' ha => ?_))
      fun o o' ho => (compM_tandem hc hr hs (fun z hz => hx z (by simp [hz])) (fun z hz => hy z (by simp [hz]))).bind
        fun vs vs' hvs => .pure ?_
    · rw [shuffled_truthy ha.shuffled]
      exact .ite (hr.bind fun v v' hv => .pure (.inr ⟨v, v', rfl, rfl, hv.shuffled⟩)) (.pure (.inl ⟨rfl, rfl⟩))
    · rcases ho with ⟨rfl, rfl⟩ | ⟨a, b, rfl, rfl, hab⟩
      · exact hvs
      · exact .cons hab hvs
end


theorem Tandem.both {off : TzDb} {α β : Type} {Q : α → β → Prop} {P : α → Prop} {P' : β → Prop} {m : M α} {m' : M β}
    (h : Tandem off Q m m') (hl : Keeps off P m) (hr : Keeps off P' m') :
    Tandem off (fun a b => Q a b ∧ P a ∧ P' b) m m' := ⟨fun s s' hs => by
  obtain ⟨h1, h2⟩ := h.out s s' hs
  refine ⟨?_, h2⟩
  have hl' := (hl.out s hs.left).1
  have hr' := (hr.out s' hs.right).1
  revert h1 hl' hr'
  generalize (m s).1 = x
  generalize (m' s').1 = y
  intro h1 hl' hr'
  cases h1 with
  | error e => exact .error e
  | ok h => exact .ok ⟨h, hl' _ rfl, hr' _ rfl⟩⟩

/-! ### Calls of builtin functions -/

theorem checkSymbol_id {name : String} {rt : DataType} {v w : Value} (h : checkSymbol name rt v = .ok w) : w = v := by
  unfold checkSymbol at h
  split at h
  · cases h; rfl
  · simp only [except_bind_ok] at h
    obtain ⟨vt, -, h⟩ := h
    repeat' split at h
    all_goals first | (cases h; done) | (cases h; rfl)

/-- a builtin function other than `map` and `filter` -/
def PlainFn (v : Value) : Prop := ∃ b : Builtin, b ≠ .map ∧ b ≠ .filter ∧ v = .builtinFn b

theorem builtin_callee {env : Env} {thing : Value} {name : String} (hn : name ∈ plainBuiltins) {rt : DataType} {s s' : St} {v : Value}
    (h : evalSymbol env thing name rt true s = (.ok v, s')) : PlainFn v := by
  obtain ⟨b, h1, h2, hb⟩ := plainBuiltin_value hn
  simp only [evalSymbol, M.bind_eq_ok, M.lift_eq_ok] at h
  obtain ⟨w, s1, hc, hw, -⟩ := h
  have hr : ctxResolve env thing name true s = (.ok (.builtinFn b), s) := by
    simp only [ctxResolve, hb, if_true]
  simp only [M.catchErr, hr, Prod.mk.injEq, Except.ok.injEq] at hc
  obtain ⟨rfl, -⟩ := hc
  exact ⟨b, h1, h2, checkSymbol_id hw⟩

theorem callFn_tandem {env : Env} (hd : env.DataOk) {dc : DecCtx} {f : Value} (hf : PlainFn f) {vs ws : List Value}
    (h : ShuffledAll vs ws) (hn : ∀ v ∈ vs, ∀ xs, v ≠ .set xs) (hv : ∀ v ∈ vs, v.WF env.utcoffset)
    (hw : ∀ v ∈ ws, v.WF env.utcoffset) : Tandem.Val env.utcoffset (callFn env dc f vs) (callFn env dc f ws) := by
  refine Tandem.wf ?_ (callFn_wf hd hv) (callFn_wf hd hw)
  obtain ⟨b, h1, h2, rfl⟩ := hf
  have key : ∀ args, callFn env dc (.builtinFn b) args = callLogged env dc (.builtinFn b) args := by
    intro args; cases b <;> first | rfl | contradiction
  rw [key, key]
  exact ⟨fun s s' hs => ⟨callBuiltin_shuffled h hn,
    ⟨hs.groups, hs.scopes, ⟨hs.left.scopes, hs.left.groups⟩, ⟨hs.right.scopes, hs.right.groups⟩⟩⟩⟩

theorem finishCall_tandem {env : Env} (hd : env.DataOk) {dc : DecCtx} {rt : DataType} {f : Value} (hf : PlainFn f) {vs ws : List Value}
    (h : ShuffledAll vs ws) (hn : ∀ v ∈ vs, ∀ xs, v ≠ .set xs) (hv : ∀ v ∈ vs, v.WF env.utcoffset)
    (hw : ∀ v ∈ ws, v.WF env.utcoffset) :
    Tandem env.utcoffset Shuffled (finishCall env dc rt f vs) (finishCall env dc rt f ws) := by
  unfold finishCall
  refine (Tandem.catch (callFn_tandem hd hf h hn hv hw) fun e => .throw).bind fun r r' hr => ?_
  refine Tandem.bind (Q := Agrees env.utcoffset) (.lift ?_) fun w w' hw => ?_
  · have hc : Agrees env.utcoffset (coerce env.utcoffset r) (coerce env.utcoffset r') :=
      ⟨coerce_shuffled hr.shuffled, coerce_wf r hr.left, coerce_wf r' hr.right⟩
    simp only [coerceVerify, shuffled_fromValue hc.shuffled hc.left]
    cases fromValue (coerce env.utcoffset r) with
    | error e => exact .error e
    | ok t => exact .ok hc
  · refine (Tandem.same (shuffled_fromValue (localise_shuffled hw.shuffled) (localise_wf hw.left))).bind fun t _ ht => ?_
    subst ht
    exact .ite (.pure (localise_shuffled hw.shuffled)) .throw

theorem evalCall_tandem {env : Env} (hd : env.DataOk) {dc : DecCtx} {name : String} (hn : name ∈ plainBuiltins) {rt : DataType}
    {f : Value} (hf : PlainFn f) {vs ws : List Value} (h : ShuffledAll vs ws) (hv : ∀ v ∈ vs, v.WF env.utcoffset)
    (hw : ∀ v ∈ ws, v.WF env.utcoffset) :
    Tandem.Val env.utcoffset (evalCall env dc (builtinType name) rt f vs) (evalCall env dc (builtinType name) rt f ws) := by
  refine Tandem.wf ?_ (evalCall_keeps hd hv) (evalCall_keeps hd hw)
  obtain ⟨n, rt', ts, mn, he, hs⟩ := plainBuiltin_type hn
  have hu : DataType.eq (builtinType name) .undefined = false := by rw [he]; rfl
  simp only [evalCall, hu, Bool.false_eq_true, if_false, validateCallValues_shuffled h (allWF_iff.2 hv)]
  rcases hx : validateCallValues (builtinType name) vs with e | u
  · exact .throw
  · refine Tandem.bind (Q := fun _ _ => True) (.lift (.ok trivial)) fun _ _ _ => finishCall_tandem hd hf h ?_ hv hw
    rw [he] at hx
    have key : ∀ {c : Prop} [Decidable c] {x : Except Err Unit}, (if c then badArg else x) = .ok u → ¬ c ∧ x = .ok u := by
      intro c _ x hx
      split at hx
      · cases hx
      · exact ⟨‹_›, hx⟩
    obtain ⟨-, hx⟩ := key hx
    obtain ⟨hl, hx⟩ := key hx
    exact validated_notSet hx (by omega) hs

/-- the node gives no set: an array, a mapping, a comprehension, a slice, a literal that is no collection, or a name declared
to be an array or a mapping -/
def Expr.ordered : Expr → Bool
  | .array _ | .mapping _ | .comp .. | .getSlice .. | .lit .. => true
  | .sym _ rt _ => rt.isArray || rt.isMapping
  | .tern _ t f => t.ordered && f.ordered
  | _ => false

mutual
/-- no function is called but builtin functions other than `$map` and `$filter`, the attribute that makes an array of a set (`to_ary`) and those that are functions of the object
(`starts_with`, `ends_with`) are not read, and comprehensions go through nothing that could be a set -/
def Expr.Orderless : Expr → Prop
  | .lit _ _ => True
  | .array xs => Expr.OrderlessList xs
  | .set xs => Expr.OrderlessList xs
  | .mapping kvs => Expr.OrderlessPairs kvs
  | .bin _ l r => l.Orderless ∧ r.Orderless
  | .comp r _ it c => r.Orderless ∧ it.Orderless ∧ c.Orderless ∧ it.ordered = true
  | .contains c m => c.Orderless ∧ m.Orderless
  | .getAttr o name _ => o.Orderless ∧ plainAttribute name
  | .getItem c i _ => c.Orderless ∧ i.Orderless
  | .getSlice c a b _ => c.Orderless ∧ a.Orderless ∧ b.Orderless
  | .sym _ _ _ => True
  | .call f args => (∃ name ∈ plainBuiltins, f = .sym name (builtinType name) true) ∧ Expr.OrderlessList args
  | .tern c t f => c.Orderless ∧ t.Orderless ∧ f.Orderless
  | .not e => e.Orderless
  | .neg e => e.Orderless
def Expr.OrderlessList : List Expr → Prop
  | [] => True
  | x :: xs => x.Orderless ∧ Expr.OrderlessList xs
def Expr.OrderlessPairs : List (Expr × Expr) → Prop
  | [] => True
  | (k, v) :: xs => k.Orderless ∧ v.Orderless ∧ Expr.OrderlessPairs xs
end

theorem checkSymbol_notSet {name : String} {rt : DataType} {v w : Value} (hr : (rt.isArray || rt.isMapping) = true)
    (h : checkSymbol name rt v = .ok w) : ∀ xs, w ≠ .set xs := by
  rintro xs rfl
  have hv := checkSymbol_ok h
  subst hv
  have hu : DataType.eq rt .undefined = false := by cases rt <;> first | rfl | simp [DataType.isArray, DataType.isMapping] at hr
  simp only [checkSymbol, hu, Bool.false_eq_true, if_false, except_bind_ok] at h
  obtain ⟨vt, h1, h⟩ := h
  simp only [fromValue, except_bind_ok, Except.ok.injEq] at h1
  obtain ⟨ts, -, rfl⟩ := h1
  have hc : ∀ m n, DataType.compat (.set m n) rt = false := by
    intro m n
    cases rt <;> first | (simp [DataType.isArray, DataType.isMapping] at hr; done) | simp [DataType.compat, DataType.eq]
  simp only [hc, Bool.false_eq_true, if_false] at h
  simp [DataType.eq] at h

section
variable {env : Env} {thing : Value} {dc : DecCtx}

theorem ordered_notSet : ∀ {e : Expr}, e.ordered = true → e.FlatLits → ∀ {s s' : St} {v : Value},
    eval env dc thing e s = (.ok v, s') → ∀ xs, v ≠ .set xs
  | .lit v t, _, hf, s, s', w, h => by
    cases h
    rintro xs rfl
    simp [Expr.FlatLits, Value.isFlat] at hf
  | .array xs, _, _, s, s', v, h => by
    simp only [eval, M.bind_eq_ok, M.pure_eq_ok] at h
    obtain ⟨_, _, _, rfl, _⟩ := h
    simp
  | .mapping xs, _, _, s, s', v, h => by
    simp only [eval, M.bind_eq_ok, M.pure_eq_ok] at h
    obtain ⟨_, _, _, _, _, _, rfl, _⟩ := h
    simp
  | .comp r x it c, _, _, s, s', v, h => by
    simp only [eval, M.bind_eq_ok] at h
    obtain ⟨_, _, _, _, _, _, h⟩ := h
    split at h
    · simp only [M.bind_eq_ok, M.pure_eq_ok] at h
      obtain ⟨_, _, _, _, _, _, rfl, _⟩ := h
      simp
    · cases h
  | .getSlice c a b safe, _, _, s, s', v, h => by
    simp only [eval, M.bind_eq_ok] at h
    obtain ⟨_, _, _, h⟩ := h
    split at h
    · split at h
      · cases h; simp
      · cases h
    · simp only [evalSlice, M.bind_eq_ok, M.pure_eq_ok, M.lift_eq_ok] at h
      obtain ⟨_, _, _, _, _, _, _, _, _, _, _, _, u, _, ⟨hu, _⟩, rfl, _⟩ := h
      unfold pyGetSlice at hu
      split at hu <;> cases hu <;> simp [coerce]
  | .sym name rt b, ho, _, s, s', v, h => by
    simp only [eval, evalSymbol, M.bind_eq_ok, M.lift_eq_ok] at h
    obtain ⟨_, _, _, h, _⟩ := h
    exact checkSymbol_notSet ho h
  | .tern c t f, ho, hf, s, s', v, h => by
    simp only [Expr.ordered, Bool.and_eq_true] at ho
    simp only [eval, M.bind_eq_ok] at h
    obtain ⟨_, _, _, h⟩ := h
    split at h
    · exact ordered_notSet ho.1 hf.2.1 h
    · exact ordered_notSet ho.2 hf.2.2 h
  | .set _, ho, _, _, _, _, _ | .bin .., ho, _, _, _, _, _ | .contains .., ho, _, _, _, _, _ | .getAttr .., ho, _, _, _, _, _
  | .getItem .., ho, _, _, _, _, _ | .call .., ho, _, _, _, _, _ | .not _, ho, _, _, _, _, _ | .neg _, ho, _, _, _, _, _ => by
    simp [Expr.ordered] at ho
end

/-- the left computation satisfies `P` when it returns -/
theorem Tandem.left {off : TzDb} {P : Value → Prop} {m m' : M Value} (h : Tandem.Val off m m')
    (hp : ∀ s s' v, m s = (.ok v, s') → P v) : Tandem off (fun a b => Agrees off a b ∧ P a) m m' := ⟨fun s s' hs => by
  obtain ⟨h1, h2⟩ := h.out s s' hs
  refine ⟨?_, h2⟩
  have hp' : ∀ v, (m s).1 = .ok v → P v := fun v hv => hp s (m s).2 v (by rw [← hv])
  revert h1 hp'
  generalize (m s).1 = x
  generalize (m' s').1 = y
  intro h1 hp'
  cases h1 with
  | error e => exact .error e
  | ok h => exact .ok ⟨h, hp' _ rfl⟩⟩

section
variable {env : Env} (hd : env.DataOk) (ho : Orderly env) {thing thing' : Value} (ht : Agrees env.utcoffset thing thing')
include hd ho ht

mutual
theorem eval_tandem {dc : DecCtx} : ∀ e : Expr, e.FlatLits → e.Orderless →
    Tandem.Val env.utcoffset (eval env dc thing e) (eval env dc thing' e)
  | .lit v t, hf, h => .pure (.refl (flat_wf hf))
  | .array xs, hf, h =>
    Tandem.wf ((seqM_tandem (evals_tandem xs hf h)).bind fun vs vs' hvs => .pure (.seq .tuple hvs))
      (eval_keeps hd ht.left (.array xs) hf) (eval_keeps hd ht.right (.array xs) hf)
  | .set xs, hf, h =>
    Tandem.wf ((setM_tandem [] (evals_tandem xs hf h)).bind fun vs vs' hvs => by subst hvs; exact .pure (.refl _))
      (eval_keeps hd ht.left (.set xs) hf) (eval_keeps hd ht.right (.set xs) hf)
  | .mapping xs, hf, h =>
    Tandem.wf ((mapKeysM_tandem (acc := []) .nil (evalPairs_tandem xs hf h)).bind fun ks ks' hk =>
        (mapValsM_tandem hk).bind fun vs vs' hvs => .pure (.map .ordered hvs))
      (eval_keeps hd ht.left (.mapping xs) hf) (eval_keeps hd ht.right (.mapping xs) hf)
  | .bin op l r, hf, h =>
    Tandem.wf (evalBin_tandem (eval_tandem l hf.1 h.1) (eval_tandem r hf.2 h.2))
      (eval_keeps hd ht.left (.bin op l r) hf) (eval_keeps hd ht.right (.bin op l r) hf)
  | .comp r x it c, hf, h => by
    refine Tandem.wf ?_ (eval_keeps hd ht.left (.comp r x it c) hf) (eval_keeps hd ht.right (.comp r x it c) hf)
    refine ((eval_tandem it hf.2.1 h.2.1).left (P := fun v => ∀ xs, v ≠ .set xs) fun s s' v hv =>
      ordered_notSet h.2.2.2 hf.2.1 hv).bind fun v v' hv => (Tandem.same (shuffled_fromValue hv.1.shuffled hv.1.left)).bind fun t _ ht' => ?_
    subst ht'
    refine .ite ?_ .throw
    have hm : InStep (fun a b => ShuffledAll a b ∧ (∀ x ∈ a, x.WF env.utcoffset) ∧ ∀ y ∈ b, y.WF env.utcoffset)
        v.members v'.members := by
      have h1 := shuffled_members hv.1.shuffled hv.2
      have h2 : ∀ xs, v.members = .ok xs → ∀ x ∈ xs, x.WF env.utcoffset := fun xs hx => members_wf hv.1.left hx
      have h3 : ∀ xs, v'.members = .ok xs → ∀ x ∈ xs, x.WF env.utcoffset := fun xs hx => members_wf hv.1.right hx
      revert h1 h2 h3
      generalize v.members = a
      generalize v'.members = b
      intro h1 h2 h3
      cases h1 with
      | error e => exact .error e
      | ok h => exact .ok ⟨h, h2 _ rfl, h3 _ rfl⟩
    refine (Tandem.lift hm).bind fun xs ys hxy => ?_
    exact (compM_tandem (eval_tandem c hf.2.2 h.2.2.1) (eval_tandem r hf.1 h.1) hxy.1 hxy.2.1 hxy.2.2).bind fun vs vs' hvs =>
      .pure (.seq .tuple hvs)
  | .contains c m, hf, h => by
    refine Tandem.wf ?_ (eval_keeps hd ht.left (.contains c m) hf) (eval_keeps hd ht.right (.contains c m) hf)
    refine (eval_tandem c hf.1 h.1).bind fun v v' hv => (Tandem.same (shuffled_fromValue hv.shuffled hv.left)).bind fun t _ ht' => ?_
    subst ht'
    exact (eval_tandem m hf.2 h.2).bind fun w w' hw =>
      (Tandem.same (shuffled_opContains hw.shuffled hw.left hv.shuffled)).bind fun b _ hb => by subst hb; exact .pure (.refl _)
  | .getAttr o name safe, hf, h => by
    simp only [eval]
    refine (eval_tandem o hf h.1).bind fun v v' hv => ?_
    exact .test (by rw [shuffled_none hv.shuffled]) (.pure (.refl (flat_wf rfl))) (evalGetAttr_tandem hd ho hv h.2)
  | .getItem c i safe, hf, h => by
    refine Tandem.wf ?_ (eval_keeps hd ht.left (.getItem c i safe) hf) (eval_keeps hd ht.right (.getItem c i safe) hf)
    simp only [eval]
    refine (eval_tandem c hf.1 h.1).bind fun v v' hv => ?_
    refine .test (shuffled_none hv.shuffled) (.ite (.pure (.refl _)) .throw) ?_
    refine (eval_tandem i hf.2 h.2).bind fun w w' hw => (Tandem.lift (shuffled_opGetItem hv hw)).bind fun o o' hoo => ?_
    rcases hoo with ⟨rfl, rfl⟩ | ⟨a, b, rfl, rfl, hab⟩
    · exact .ite (.pure (.refl _)) .throw
    · exact .pure (localise_shuffled (coerce_shuffled hab))
  | .getSlice c a b safe, hf, h => by
    refine Tandem.wf ?_ (eval_keeps hd ht.left (.getSlice c a b safe) hf) (eval_keeps hd ht.right (.getSlice c a b safe) hf)
    simp only [eval]
    refine (eval_tandem c hf.1 h.1).bind fun v v' hv => ?_
    refine .test (shuffled_none hv.shuffled) (.ite (.pure (.refl _)) .throw) ?_
    unfold evalSlice
    refine (eval_tandem a hf.2.1 h.2.1).bind fun x x' hx => (Tandem.same (shuffled_sliceArg hx.shuffled)).bind fun i _ hi => ?_
    subst hi
    refine (eval_tandem b hf.2.2 h.2.2).bind fun y y' hy => (Tandem.same (shuffled_sliceArg hy.shuffled)).bind fun j _ hj => ?_
    subst hj
    exact (Tandem.lift (shuffled_getSlice hv.shuffled)).bind fun w w' hw => .pure (coerce_shuffled hw)
  | .sym name rt b, hf, h => by simp only [eval]; exact evalSymbol_tandem hd ho ht ..
  | .call f args, hf, h => by
    obtain ⟨⟨name, hn, rfl⟩, hargs⟩ := h
    simp only [eval]
    refine ((evalSymbol_tandem hd ho ht name (builtinType name) true).left fun s s' v hv => builtin_callee hn hv).bind
      fun fv fv' hfv => ?_
    obtain ⟨hfv, b, h1, h2, rfl⟩ := hfv
    obtain rfl := hfv.shuffled.sides rfl
    refine .ite ?_ .throw
    refine ((seqM_tandem (evals_tandem args hf.2 hargs)).both (seqM_keeps (evals_keeps hd ht.left args hf.2))
      (seqM_keeps (evals_keeps hd ht.right args hf.2))).bind fun vs ws hvs => ?_
    exact evalCall_tandem hd hn ⟨b, h1, h2, rfl⟩ hvs.1 hvs.2.1 hvs.2.2
  | .tern c t f, hf, h => by
    simp only [eval]
    refine (eval_tandem c hf.1 h.1).bind fun v v' hv => ?_
    rw [shuffled_truthy hv.shuffled]
    exact .ite (eval_tandem t hf.2.1 h.2.1) (eval_tandem f hf.2.2 h.2.2)
  | .not e, hf, h => by
    simp only [eval]
    refine (eval_tandem e hf h).bind fun v v' hv => ?_
    rw [shuffled_truthy hv.shuffled]
    exact .pure (.refl (flat_wf rfl))
  | .neg e, hf, h => by
    refine Tandem.wf ?_ (eval_keeps hd ht.left (.neg e) hf) (eval_keeps hd ht.right (.neg e) hf)
    simp only [eval]
    refine (eval_tandem e hf h).bind fun v v' hv => ?_
    rw [shuffled_opNeg hv.shuffled]
    rcases opNeg dc v with x | x
    · exact .lift (.error x)
    · exact .lift (.ok (.refl x))
theorem evals_tandem {dc : DecCtx} : ∀ es : List Expr, Expr.FlatList es → Expr.OrderlessList es →
    List.Forall₂ (Tandem.Val env.utcoffset) (evals env dc thing es) (evals env dc thing' es)
  | [], _, _ => .nil
  | e :: es, hf, h => .cons (eval_tandem e hf.1 h.1) (evals_tandem es hf.2 h.2)
theorem evalPairs_tandem {dc : DecCtx} : ∀ es : List (Expr × Expr), Expr.FlatPairs es → Expr.OrderlessPairs es →
    List.Forall₂ (fun p q : M Value × M Value => Tandem.Val env.utcoffset p.1 q.1 ∧ Tandem.Val env.utcoffset p.2 q.2)
      (evalPairs env dc thing es) (evalPairs env dc thing' es)
  | [], _, _ => .nil
  | (k, v) :: es, hf, h => .cons ⟨eval_tandem k hf.1 h.1, eval_tandem v hf.2.1 h.2.1⟩ (evalPairs_tandem es hf.2.2 h.2.2)
end
end

/-! ### Texts of rules -/

/-- the text stands for no set, whatever the data: an array, a mapping, a comprehension, a slice, a literal that is no
collection, or a choice between such -/
def Raw.ordered : Raw → Bool
  | .lit _ | .floatLit _ | .datetimeLit _ | .timedeltaLit _ | .array _ | .mapping _ | .comp .. | .getSlice .. => true
  | .tern _ t f => t.ordered && f.ordered
  | _ => false

mutual
/-- no function is called but builtin functions other than `$map` and `$filter`, no attribute is one of `to_ary`, `starts_with` and `ends_with`, and comprehensions go through
arrays, mappings, comprehensions and slices that are written in the rule -/
def Raw.Orderless : Raw → Prop
  | .lit _ | .floatLit _ | .datetimeLit _ | .timedeltaLit _ => True
  | .array xs => Raw.OrderlessList xs
  | .set xs => Raw.OrderlessList xs
  | .mapping kvs => Raw.OrderlessPairs kvs
  | .bin _ l r => l.Orderless ∧ r.Orderless
  | .comp r _ it c => r.Orderless ∧ it.Orderless ∧ c.Orderless ∧ it.ordered = true
  | .contains c m => c.Orderless ∧ m.Orderless
  | .getAttr o name _ => o.Orderless ∧ plainAttribute name
  | .getItem c i _ => c.Orderless ∧ i.Orderless
  | .getSlice c a b _ => c.Orderless ∧ a.Orderless ∧ b.Orderless
  | .sym _ _ => True
  | .call f args => (∃ name ∈ plainBuiltins, f = .sym name true) ∧ Raw.OrderlessList args
  | .tern c t f => c.Orderless ∧ t.Orderless ∧ f.Orderless
  | .not e => e.Orderless
  | .neg e => e.Orderless
def Raw.OrderlessList : List Raw → Prop
  | [] => True
  | x :: xs => x.Orderless ∧ Raw.OrderlessList xs
def Raw.OrderlessPairs : List (Raw × Raw) → Prop
  | [] => True
  | (k, v) :: xs => k.Orderless ∧ v.Orderless ∧ Raw.OrderlessPairs xs
end

mutual
theorem ofValue_orderless (off : TzDb) : ∀ v : Value, (Expr.ofValue off v).Orderless
  | .seq _ xs => ofValues_orderless off xs
  | .set xs => ofValues_orderless off xs
  | .map _ kvs => ofPairs_orderless off kvs
  | .none | .bool _ | .int _ | .float _ | .dec _ | .str _ | .bytes _ | .date _ | .datetime .. | .timedelta _
  | .builtinFn _ | .userFn _ | .method .. | .obj _ | .undef => trivial
theorem ofValues_orderless (off : TzDb) : ∀ xs : List Value, Expr.OrderlessList (Expr.ofValues off xs)
  | [] => trivial
  | x :: xs => ⟨ofValue_orderless off x, ofValues_orderless off xs⟩
theorem ofPairs_orderless (off : TzDb) : ∀ xs : List (Value × Value), Expr.OrderlessPairs (Expr.ofPairs off xs)
  | [] => trivial
  | (k, v) :: xs => ⟨ofValue_orderless off k, ofValue_orderless off v, ofPairs_orderless off xs⟩
end

theorem folds_orderless {env : Env} {dct : DecCtx} {Γ : List Assignment} {node e : Expr}
    (h : Folds env dct Γ node e) : e.Orderless := by
  obtain ⟨v, -, hl⟩ := h
  simp only [litOf, except_bind_ok, Except.ok.injEq] at hl
  obtain ⟨t, -, rfl⟩ := hl
  exact ofValue_orderless _ _

theorem ofValue_ordered {off : TzDb} {v : Value} (h : ∀ xs, v ≠ .set xs) : (Expr.ofValue off v).ordered = true := by
  cases v <;> first | rfl | exact absurd rfl (h _)

theorem built_ordered {env : Env} {dct : DecCtx} : ∀ (raw : Raw) {Γ : List Assignment} {e : Expr}, raw.Plain →
    raw.ordered = true → Built env dct Γ raw e → e.ordered = true
  | .lit v, Γ, e, hp, ho, hb => by simp only [Built] at hb; obtain ⟨t, -, rfl⟩ := hb; rfl
  | .floatLit x, Γ, e, hp, ho, hb => by simp only [Built] at hb; obtain ⟨d, -, rfl⟩ := hb; rfl
  | .datetimeLit x, Γ, e, hp, ho, hb => by simp only [Built] at hb; obtain ⟨d, -, rfl⟩ := hb; rfl
  | .timedeltaLit x, Γ, e, hp, ho, hb => by simp only [Built] at hb; obtain ⟨d, -, rfl⟩ := hb; rfl
  | .array xs, Γ, e, hp, ho, hb => by simp only [Built] at hb; obtain ⟨es, -, rfl⟩ := hb; rfl
  | .mapping kvs, Γ, e, hp, ho, hb => by simp only [Built] at hb; obtain ⟨es, -, -, rfl⟩ := hb; rfl
  | .comp r var it c, Γ, e, hp, ho, hb => by
    simp only [Built] at hb
    obtain ⟨it', t, c', r', -, -, -, -, rfl⟩ := hb
    rfl
  | .getSlice c a b safe, Γ, e, hp, ho, hb => by
    simp only [Built] at hb
    obtain ⟨c', a', b', hc, ha, hb', -, he⟩ := hb
    split at he
    · obtain ⟨v, ⟨s, s', -, hv⟩, hl⟩ := he
      simp only [litOf, except_bind_ok, Except.ok.injEq] at hl
      obtain ⟨t, -, rfl⟩ := hl
      exact ofValue_ordered (ordered_notSet (e := .getSlice c' a' b' safe) rfl
        ⟨built_flat c hp.1 hc, built_flat a hp.2.1 ha, built_flat b hp.2.2 hb'⟩ hv)
    · rw [he]; rfl
  | .tern c t f, Γ, e, hp, ho, hb => by
    simp only [Built] at hb
    obtain ⟨c', t', f', hc, ht, hf, rfl⟩ := hb
    simp only [Raw.ordered, Bool.and_eq_true] at ho
    have h2 := built_ordered t hp.2.1 ho.1 ht
    have h3 := built_ordered f hp.2.2 ho.2 hf
    unfold mkTern
    split
    · split <;> assumption
    · simp only [Expr.ordered, h2, h3, Bool.and_self]
  | .set _, _, _, _, ho, _ | .bin .., _, _, _, ho, _ | .contains .., _, _, _, ho, _ | .getAttr .., _, _, _, ho, _
  | .getItem .., _, _, _, ho, _ | .sym .., _, _, _, ho, _ | .call .., _, _, _, ho, _ | .not _, _, _, _, ho, _
  | .neg _, _, _, _, ho, _ => by simp [Raw.ordered] at ho

mutual
/-- construction keeps a rule free of order -/
theorem built_orderless {env : Env} {dct : DecCtx} : ∀ (raw : Raw) {Γ : List Assignment} {e : Expr}, raw.Plain →
    raw.Orderless → Built env dct Γ raw e → e.Orderless
  | .lit v, Γ, e, hp, ho, hb => by simp only [Built] at hb; obtain ⟨t, -, rfl⟩ := hb; trivial
  | .floatLit x, Γ, e, hp, ho, hb => by simp only [Built] at hb; obtain ⟨d, -, rfl⟩ := hb; trivial
  | .datetimeLit x, Γ, e, hp, ho, hb => by simp only [Built] at hb; obtain ⟨d, hd, rfl⟩ := hb; trivial
  | .timedeltaLit x, Γ, e, hp, ho, hb => by simp only [Built] at hb; obtain ⟨d, -, rfl⟩ := hb; trivial
  | .array xs, Γ, e, hp, ho, hb => by simp only [Built] at hb; obtain ⟨es, hes, rfl⟩ := hb; exact builts_orderless xs hp ho hes
  | .set xs, Γ, e, hp, ho, hb => by simp only [Built] at hb; obtain ⟨es, hes, rfl⟩ := hb; exact builts_orderless xs hp ho hes
  | .mapping kvs, Γ, e, hp, ho, hb => by
    simp only [Built] at hb; obtain ⟨es, hes, -, rfl⟩ := hb; exact builtp_orderless kvs hp ho hes
  | .bin op l r, Γ, e, hp, ho, hb => by
    simp only [Built] at hb
    obtain ⟨l', r', hl, hr, -, he⟩ := hb
    split at he
    · exact folds_orderless he
    · rw [he]; exact ⟨built_orderless l hp.1 ho.1 hl, built_orderless r hp.2 ho.2 hr⟩
  | .comp r var it c, Γ, e, hp, ho, hb => by
    simp only [Built] at hb
    obtain ⟨it', t, c', r', hit, -, hc, hr, rfl⟩ := hb
    exact ⟨built_orderless r hp.1 ho.1 hr, built_orderless it hp.2.1 ho.2.1 hit, built_orderless c hp.2.2 ho.2.2.1 hc,
      built_ordered it hp.2.1 ho.2.2.2 hit⟩
  | .contains c m, Γ, e, hp, ho, hb => by
    simp only [Built] at hb
    obtain ⟨c', m', hc, hm, -, he⟩ := hb
    split at he
    · obtain ⟨v, -, rfl⟩ := he
      trivial
    · rw [he]; exact ⟨built_orderless c hp.1 ho.1 hc, built_orderless m hp.2 ho.2 hm⟩
  | .getAttr o name safe, Γ, e, hp, ho, hb => by
    simp only [Built] at hb
    obtain ⟨o', hb', -, he⟩ := hb
    split at he
    · obtain ⟨e', hf, rfl⟩ := he
      have := folds_orderless hf
      unfold attrLit
      split
      · split <;> exact this
      · exact this
    · rw [he]; exact ⟨built_orderless o hp ho.1 hb', ho.2⟩
  | .getItem c i safe, Γ, e, hp, ho, hb => by
    simp only [Built] at hb
    obtain ⟨c', i', hc, hi, -, he⟩ := hb
    split at he
    · rw [he]; trivial
    split at he
    · exact folds_orderless he
    · rw [he]; exact ⟨built_orderless c hp.1 ho.1 hc, built_orderless i hp.2 ho.2 hi⟩
  | .getSlice c a b safe, Γ, e, hp, ho, hb => by
    simp only [Built] at hb
    obtain ⟨c', a', b', hc, ha, hb', -, he⟩ := hb
    split at he
    · exact folds_orderless he
    · rw [he]
      exact ⟨built_orderless c hp.1 ho.1 hc, built_orderless a hp.2.1 ho.2.1 ha, built_orderless b hp.2.2 ho.2.2 hb'⟩
  | .sym name b, Γ, e, hp, ho, hb => by simp only [Built] at hb; obtain ⟨t, -, rfl⟩ := hb; trivial
  | .call f args, Γ, e, hp, ho, hb => by
    obtain ⟨⟨name, hn, rfl⟩, ha⟩ := ho
    simp only [Built] at hb
    obtain ⟨f', as, ⟨t, ht, rfl⟩, has, -, he⟩ := hb
    split at he
    · exact folds_orderless he
    · rw [he]
      refine ⟨⟨name, hn, ?_⟩, builts_orderless args hp.2 ha has⟩
      simp only [symType, if_true, Except.ok.injEq] at ht
      rw [← ht]
  | .tern c t f, Γ, e, hp, ho, hb => by
    simp only [Built] at hb
    obtain ⟨c', t', f', hc, ht, hf, rfl⟩ := hb
    have h1 := built_orderless c hp.1 ho.1 hc
    have h2 := built_orderless t hp.2.1 ho.2.1 ht
    have h3 := built_orderless f hp.2.2 ho.2.2 hf
    unfold mkTern
    split
    · split <;> assumption
    · exact ⟨h1, h2, h3⟩
  | .not x, Γ, e, hp, ho, hb => by
    simp only [Built] at hb
    obtain ⟨x', hx, he⟩ := hb
    split at he
    · obtain ⟨v, -, rfl⟩ := he
      trivial
    · rw [he]; exact (built_orderless x hp ho hx : x'.Orderless)
  | .neg x, Γ, e, hp, ho, hb => by
    simp only [Built] at hb
    obtain ⟨x', hx, he⟩ := hb
    have h1 := built_orderless x hp ho hx
    split at he
    · obtain ⟨w, v, t, -, -, -, rfl⟩ := he
      trivial
    · rw [he]; exact h1
theorem builts_orderless {env : Env} {dct : DecCtx} : ∀ (raws : List Raw) {Γ : List Assignment} {es : List Expr},
    Raw.PlainList raws → Raw.OrderlessList raws → BuiltList env dct Γ raws es → Expr.OrderlessList es
  | [], Γ, es, hp, ho, hb => by simp only [BuiltList] at hb; subst hb; trivial
  | x :: xs, Γ, es, hp, ho, hb => by
    simp only [BuiltList] at hb
    obtain ⟨e, es', he, hes, rfl⟩ := hb
    exact ⟨built_orderless x hp.1 ho.1 he, builts_orderless xs hp.2 ho.2 hes⟩
theorem builtp_orderless {env : Env} {dct : DecCtx} : ∀ (raws : List (Raw × Raw)) {Γ : List Assignment}
    {es : List (Expr × Expr)}, Raw.PlainPairs raws → Raw.OrderlessPairs raws → BuiltPairs env dct Γ raws es →
    Expr.OrderlessPairs es
  | [], Γ, es, hp, ho, hb => by simp only [BuiltPairs] at hb; subst hb; trivial
  | (k, v) :: xs, Γ, es, hp, ho, hb => by
    simp only [BuiltPairs] at hb
    obtain ⟨k', v', es', hk, hv, hes, rfl⟩ := hb
    exact ⟨built_orderless k hp.1 ho.1 hk, built_orderless v hp.2.1 ho.2.1 hv, builtp_orderless xs hp.2.2 ho.2.2 hes⟩
end

theorem reset_alongside (off : TzDb) (s s' : St) : Alongside off s.reset s'.reset :=
  ⟨rfl, .nil, ⟨by simp [St.reset], by simp [St.reset, Value.WF]⟩, ⟨by simp [St.reset], by simp [St.reset, Value.WF]⟩⟩

section
variable {env : Env} (hd : env.DataOk) (ho : Orderly env) {thing thing' : Value} (ht : Agrees env.utcoffset thing thing')
include hd ho ht

/-- **C85.** A rule whose tree calls no function but builtin ones other than `$map` and `$filter`, reads none of the attributes `to_ary`, `starts_with` and `ends_with`, and
has comprehensions only through what is no set, cannot tell apart two things that differ only in the order in which the
members of sets come: it raises the same exception, or gives results that differ only in that. -/
theorem sets_without_order {codec : LitCodec} {dct : DecCtx} {text : String} {p q q' : Proc} {e : Expr}
    (h : (p.rule codec env dct text).1 = .ok e) (hs : e.Orderless) :
    InStep Shuffled (q.evaluate env e thing).1 (q'.evaluate env e thing').1 := by
  have h' : parseRule codec env dct p.line text p.st = (.ok e, (parseRule codec env dct p.line text p.st).2) := by
    rw [← h]; rfl
  obtain ⟨raw, _, -, hp, hc⟩ := parseRule_ok h'
  have hf := built_flat raw hp (build_built raw hc)
  exact (((eval_tandem hd ho ht (dc := env.decCtx) e hf hs).mono fun _ _ h => h.shuffled).out q.st.reset q'.st.reset
    (reset_alongside ..)).1

/-- **C85.** So it matches the one exactly when it matches the other. -/
theorem sets_without_order_matches {codec : LitCodec} {dct : DecCtx} {text : String} {p : Proc} {e : Expr} {s s' : St}
    (h : (p.rule codec env dct text).1 = .ok e) (hs : e.Orderless) :
    (ruleMatches env e thing s).1 = (ruleMatches env e thing' s').1 := by
  have key := sets_without_order hd ho ht (q := ⟨1, s⟩) (q' := ⟨1, s'⟩) h hs
  simp only [Proc.evaluate] at key
  simp only [ruleMatches, M.bind_apply]
  rcases hx : ruleEval env e thing s with ⟨x, s1⟩
  rcases hy : ruleEval env e thing' s' with ⟨y, s2⟩
  rw [hx, hy] at key
  cases key with
  | error e => rfl
  | ok h => simp only [M.pure_apply, shuffled_truthy h]

/-- **C85.** The same for the text of the rule: when it calls no function but builtin ones other than `$map` and `$filter`, reads none of these attributes, and has
comprehensions only through arrays, mappings, comprehensions and slices written in it. -/
theorem sets_without_order_text {codec : LitCodec} {t : List Char} {raw : Raw} (hm : Means codec t raw) (hs : raw.Orderless) :
    InStep Shuffled (runText codec env t thing) (runText codec env t thing') := by
  have hr : (Proc.new.rule codec env env.decCtx (String.ofList t)).1 = (build env env.decCtx raw St.init).1 := rule_of_means hm
  unfold runText
  rcases hx : Proc.new.rule codec env env.decCtx (String.ofList t) with ⟨x, q⟩
  rw [hx] at hr
  cases x with
  | error e => exact .error e
  | ok e =>
    refine sets_without_order hd ho ht (p := Proc.new) (text := String.ofList t) (dct := env.decCtx) (codec := codec)
      (by rw [hx]) ?_
    have h' : parseRule codec env env.decCtx Proc.new.line (String.ofList t) Proc.new.st =
        (.ok e, (parseRule codec env env.decCtx Proc.new.line (String.ofList t) Proc.new.st).2) := by
      have : (parseRule codec env env.decCtx Proc.new.line (String.ofList t) Proc.new.st).1 = .ok e := by
        have := congrArg Prod.fst hx
        exact this
      rw [← this]
    obtain ⟨raw', _, ho', hp, hc⟩ := parseRule_ok h'
    rw [hm, Except.ok.injEq, Prod.mk.injEq] at ho'
    obtain ⟨rfl, -⟩ := ho'
    exact built_orderless raw hp hs (build_built raw hc)
end

/-! ### The hypotheses are met -/

theorem items_all {f : Value → Bool} {xs ys : List (Value × Value)} (h : ShuffledItems xs ys) :
    (ys.all fun p => f p.1) = xs.all fun p => f p.1 := by
  have := h.keys
  rw [show (ys.all fun p => f p.1) = (ys.map (·.1)).all f by simp [List.all_map, Function.comp_def], this]
  simp [List.all_map, Function.comp_def]

/-- `resolve_item`, which looks names up in mappings, gives the same up to the order of sets -/
theorem resolveItem_orderly {off : TzDb} {o o' : Value} (name : String) (h : Shuffled o o') :
    InStep Shuffled (resolveItem off o name) (resolveItem off o' name) := by
  cases h with
  | seq => exact .error _
  | set => exact .error _
  | same v hv => cases o <;> first | exact .error _ | simp [Value.isFlat] at hv
  | map k h =>
    simp only [resolveItem]
    rcases mapLookup_shuffled (off := off) (.str name) h with ⟨h1, h2⟩ | ⟨a, b, h1, h2, hab⟩
    · simp only [h1, h2, items_all (f := Value.isStr) h]
      split <;> exact .error _
    · simp only [h1, h2]
      exact .ok hab

theorem sampleEnv_orderly : Orderly sampleEnv := fun _ _ name h => resolveItem_orderly name h.shuffled

/-- two dictionaries with the same sets, whose members come in different orders -/
def firstOrder : Value := dictOf [("x", .set [.str "a", .str "b"]), ("y", .seq .tuple [.set [.str "b", .str "c"]])]
def otherOrder : Value := dictOf [("x", .set [.str "b", .str "a"]), ("y", .seq .tuple [.set [.str "c", .str "b"]])]

theorem orders_agree : Agrees sampleEnv.utcoffset firstOrder otherOrder := by
  have h : ∀ (off : TzDb) (a b : String), pyEq off (.str a) (.str b) = (a == b) := fun _ _ _ => by simp only [pyEq]
  refine ⟨.map _ (.cons _ (.set (.swap ..)) (.cons _ (.seq _ (.cons (.set (.swap ..)) .nil)) .nil)), ?_, ?_⟩
  · simp [firstOrder, dictOf, Value.WF, Value.PairsWF, Value.AllWF, h, Value.hashable]
  · simp [otherOrder, dictOf, Value.WF, Value.PairsWF, Value.AllWF, h, Value.hashable]

/-- A rule that unites the set under `x` with every set of the array `y`: it gives the same sets for both dictionaries,
with their members in different orders. -/
example (codec : LitCodec) :
    let t := "[(x) | (z) for z in (y)[:]]".toList
    ∃ raw, Means codec t raw ∧ raw.Orderless ∧
      runText codec sampleEnv t firstOrder = .ok (.tuple [.set [.str "a", .str "b", .str "c"]]) ∧
      runText codec sampleEnv t otherOrder = .ok (.tuple [.set [.str "b", .str "a", .str "c"]]) := by
  intro t
  have hx : Means codec ['x'] (.sym "x" false) := means_sym x_word
  have hy : Means codec ['y'] (.sym "y" false) := means_sym y_word
  have hz : Means codec ['z'] (.sym "z" false) := means_sym z_word
  have h := means_comp (means_bin hx hz .BWOR (by decide)) (means_slice_all hy false) z_word
  refine ⟨_, h, ⟨⟨trivial, trivial⟩, ⟨trivial, trivial, trivial⟩, trivial, rfl⟩, ?_, ?_⟩
  · exact (runText_means h _).trans (by decide +kernel)
  · exact (runText_means h _).trans (by decide +kernel)

/-- **C85.** The conditions are needed: a comprehension through a set, `to_ary`, and a function of the program tell the
dictionaries apart. -/
theorem order_of_sets_seen (codec : LitCodec) :
    let one := { sampleEnv with callUser := fun _ args => match args with | [.set xs] => .ok (.seq .tuple xs) | _ => .ok .none }
    runText codec sampleEnv "[y for y in x]".toList firstOrder = .ok (.tuple [.str "a", .str "b"]) ∧
    runText codec sampleEnv "[y for y in x]".toList otherOrder = .ok (.tuple [.str "b", .str "a"]) ∧
    runText codec sampleEnv "(x).to_ary".toList firstOrder = .ok (.tuple [.str "a", .str "b"]) ∧
    runText codec sampleEnv "(x).to_ary".toList otherOrder = .ok (.tuple [.str "b", .str "a"]) ∧
    runRaw one (.call (.sym "z" false) [.sym "x" false]) (dictOf [("z", .userFn 0), ("x", .set [.str "a", .str "b"])]) =
      .ok (.tuple [.str "a", .str "b"]) ∧
    runRaw one (.call (.sym "z" false) [.sym "x" false]) (dictOf [("z", .userFn 0), ("x", .set [.str "b", .str "a"])]) =
      .ok (.tuple [.str "b", .str "a"]) := by
  have hx : Means codec ['x'] (.sym "x" false) := means_sym x_word
  have hy : Means codec ['y'] (.sym "y" false) := means_sym y_word
  have h1 := means_comp hy hx y_word
  have h2 := means_attr (n := "to_ary".toList) hx ⟨by decide, by decide⟩ (by decide) false
  refine ⟨?_, ?_, ?_, ?_, by decide +kernel, by decide +kernel⟩
  · exact (runText_means h1 _).trans (by decide +kernel)
  · exact (runText_means h1 _).trans (by decide +kernel)
  · exact (runText_means h2 _).trans (by decide +kernel)
  · exact (runText_means h2 _).trans (by decide +kernel)

/-- **C85.** `$map` is excluded with reason: given `$sum` it adds up the members of sets in their order, and sums are rounded:
`$map($sum, [x])` for `{1E+28, 4, 3}` (28 digits). -/
theorem map_sees_order :
    let rule : Raw := .call (.sym "map" true) [.sym "sum" true, .array [.sym "x" false]]
    let sets (xs : List Value) := dictOf [("x", .set xs)]
    let a : Value := .dec (.fin false 1 28)
    let b : Value := .dec (.fin false 4 0)
    let c : Value := .dec (.fin false 3 0)
    runRaw sampleEnv rule (sets [a, b, c]) = .ok (.tuple [.dec (.fin false 1000000000000000000000000000 1)]) ∧
    runRaw sampleEnv rule (sets [c, b, a]) = .ok (.tuple [.dec (.fin false 1000000000000000000000000001 1)]) := by
  exact ⟨by decide +kernel, by decide +kernel⟩

/-- `$any([x == {"b", "a"}])` meets the conditions and is true for both dictionaries. -/
example :
    let rule : Raw := .call (.sym "any" true) [.array [.bin .eq (.sym "x" false) (.set [.lit (.str "b"), .lit (.str "a")])]]
    rule.Orderless ∧ runRaw sampleEnv rule firstOrder = .ok (.bool true) ∧ runRaw sampleEnv rule otherOrder = .ok (.bool true) := by
  refine ⟨⟨⟨"any", by decide, rfl⟩, ⟨⟨trivial, trivial, trivial, trivial⟩, trivial⟩, trivial⟩, by decide +kernel, by decide +kernel⟩

end RE
