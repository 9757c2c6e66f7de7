import Verif.Props.Leaks

/-!
# Which exceptions escape evaluation (C29)
-/

set_option linter.unusedSimpArgs false
set_option linter.unusedVariables false

namespace RE

/-! ## Tables of the other nodes -/

/-- **Specification.** `value.name` raises something other than an EngineError: `to_flt` and `to_int` of text that
Python cannot read as a number, `to_flt`, `floor` and `ceiling` with a result that is too long for `repr`, `to_set` of an
array with an unhashable member; or the resolver does. -/
inductive AttrLeak (env : Env) : Value → String → Prop
  | toFlt {s : String} : Except.Leaks (stringToFlt env s >>= env.shortInt) → AttrLeak env (.str s) "to_flt"
  | toInt {s : String} : Except.Leaks (stringToFlt env s >>= fun r => assertInteger r >>= fun _ => env.shortInt r) →
      AttrLeak env (.str s) "to_int"
  | floor {n : Bool} {c : Nat} {e : Int} : env.tooLong (decFloor n c e).natAbs = true →
      AttrLeak env (.dec (.fin n c e)) "floor"
  | ceiling {n : Bool} {c : Nat} {e : Int} : env.tooLong (decCeil n c e).natAbs = true →
      AttrLeak env (.dec (.fin n c e)) "ceiling"
  | resolver {v : Value} {name : String} {k : PyErr} : env.resolver v name = .error (.py k) → AttrLeak env v name
  | toSet {v x : Value} {xs : List Value} : v.members = .ok xs → x ∈ xs → x.hashable = false → AttrLeak env v "to_set"

/-- **Specification.** `container[item]` raises something other than an EngineError: the container is neither text nor
an array nor a mapping, or the key of a mapping is not hashable. -/
inductive ItemLeak : Value → Value → Prop
  | container {c i : Value} : (∀ s, c ≠ .str s) → (∀ s, c ≠ .bytes s) → (∀ xs, c ≠ .tuple xs) →
      (∀ kvs, c ≠ .map .ordered kvs) → ItemLeak c i
  | key {k : MapKind} {kvs : List (Value × Value)} {i : Value} : i.hashable = false → ItemLeak (.map k kvs) i

/-- **Specification.** values that cannot be sliced -/
def SliceLeak (c : Value) : Prop := (∀ s, c ≠ .str s) ∧ (∀ s, c ≠ .bytes s) ∧ (∀ xs, c ≠ .tuple xs)

/-- **Specification.** `-value` raises something other than an EngineError: the Decimal operation signals or the
duration is out of range. -/
inductive NegLeak (dc : DecCtx) : Value → Prop
  | dec {x : Dec} {e : DecErr} : decNeg dc x = .error e → NegLeak dc (.dec x)
  | timedelta {x : Int} : ¬(-(999999999 * dayUs) ≤ -x ∧ -x < 1000000000 * dayUs) → NegLeak dc (.timedelta x)

theorem item_leaks {off : TzDb} {c i : Value} (hc : c.Normal) (hi : i.Normal)
    (h : Except.Leaks (opGetItem off c i)) : ItemLeak c i := by
  unfold opGetItem at h
  rw [leaks_bind] at h
  cases c
  case str s =>
    rcases h with h | ⟨_, -, h⟩
    · exact absurd h (assertInteger_no_leak hi)
    · simp [pyGetItem] at h
  case bytes s =>
    rcases h with h | ⟨_, -, h⟩
    · exact absurd h (assertInteger_no_leak hi)
    · simp [pyGetItem] at h
  case seq k xs =>
    simp only [Value.Normal] at hc; obtain ⟨rfl, -⟩ := hc
    rcases h with h | ⟨_, -, h⟩
    · exact absurd h (assertInteger_no_leak hi)
    · simp [pyGetItem] at h
  case map k kvs =>
    rcases h with h | ⟨_, -, h⟩
    · simp [itemCheck] at h
    · refine .key ?_
      simp only [pyGetItem] at h
      split at h
      · simp at h
      · simp_all
  all_goals exact .container (by simp) (by simp) (by simp) (by simp)

theorem slice_leaks {c : Value} {a b : Option Int} (hc : c.Normal) (h : Except.Leaks (pyGetSlice c a b)) :
    SliceLeak c := by
  cases c
  case str s => simp [pyGetSlice] at h
  case bytes s => simp [pyGetSlice] at h
  case seq k xs => simp [pyGetSlice] at h
  all_goals exact ⟨by simp, by simp, by simp⟩

theorem sliceArg_no_leak {v : Value} (h : v.Normal) : ¬Except.Leaks (sliceArg v) := by
  intro hl
  unfold sliceArg at hl
  split at hl
  · simp at hl
  · rw [leaks_bind] at hl
    rcases hl with hl | ⟨_, -, hl⟩
    · exact assertInteger_no_leak h hl
    · simp at hl

theorem neg_leaks {dc : DecCtx} {v : Value} (hv : v.Normal) (h : Except.Leaks (opNeg dc v)) : NegLeak dc v := by
  unfold opNeg at h
  cases v <;> simp only [Value.Normal] at hv <;> simp [isNumeric, pyNeg, decMap_leaks, mkTimedelta_leaks] at h
  · obtain ⟨e, he⟩ := h; exact .dec he
  · refine .timedelta ?_; omega

theorem kind_form {v : Value} {t : DataType} {k : AttrKind} (hv : v.Normal) (h : fromValue v = .ok t)
    (hk : attrKind t = some k) :
    (k = .bytes ∧ ∃ b, v = .bytes b) ∨ (k = .datetime ∧ ∃ us tz, v = .datetime us tz) ∨ (k = .float ∧ ∃ d, v = .dec d) ∨
    (k = .mapping ∧ ∃ kvs, v = .map .ordered kvs) ∨ (k = .string ∧ ∃ s, v = .str s) ∨
    (k = .timedelta ∧ ∃ us, v = .timedelta us) ∨ (k = .array ∧ ∃ xs, v = .tuple xs) ∨ (k = .set ∧ ∃ xs, v = .set xs) := by
  cases v <;> simp only [Value.Normal] at hv
  case seq k' xs => obtain ⟨u, rfl⟩ := fromValue_seq_ok h; cases hk; obtain ⟨rfl, -⟩ := hv; simp
  case set xs => obtain ⟨u, rfl⟩ := fromValue_set_ok h; cases hk; simp
  case map k' kvs => obtain ⟨u, w, rfl⟩ := fromValue_map_ok h; cases hk; obtain ⟨rfl, -⟩ := hv; simp
  all_goals (cases h <;> cases hk <;> simp)

theorem toSet_leaks {env : Env} {v : Value} {xs : List Value} (hm : v.members = .ok xs)
    (h : Except.Leaks (do let xs ← v.members; let s ← setOfList env.utcoffset xs; (.ok (.set s) : Except Err Value))) :
    AttrLeak env v "to_set" := by
  simp only [hm, leaks_bind] at h
  rcases h with h | ⟨a, ha, h⟩
  · simp at h
  · cases ha
    rcases h with h | ⟨_, -, h⟩
    · unfold setOfList at h
      split at h
      · simp at h
      · rename_i hh
        rw [allHashable_iff] at hh
        simp only [not_forall] at hh
        obtain ⟨x, hx, hh⟩ := hh
        exact .toSet hm hx (by simpa using hh)
    · simp at h

theorem attrValue_leaks {env : Env} {v : Value} {k : AttrKind} {t : DataType} {name : String}
    {f : DataType → DataType} (hv : v.Normal) (ht : fromValue v = .ok t) (hk : attrKind t = some k)
    (hf : attrTypeFn k name = some f) (h : Except.Leaks (attrValue env k name v)) : AttrLeak env v name := by
  rcases kind_form hv ht hk with ⟨rfl, b, rfl⟩ | ⟨rfl, us, tz, rfl⟩ | ⟨rfl, d, rfl⟩ | ⟨rfl, kvs, rfl⟩ | ⟨rfl, s, rfl⟩ |
    ⟨rfl, us, rfl⟩ | ⟨rfl, xs, rfl⟩ | ⟨rfl, xs, rfl⟩
  · simp only [attrTypeFn] at hf
    split at hf <;> first
      | (cases hf; done)
      | (simp [attrValue, Value.members, leaks_bind] at h; done)
      | (exact toSet_leaks (env := env) rfl h)
  · simp only [attrTypeFn] at hf
    split at hf <;> first
      | (cases hf; done)
      | (simp [attrValue] at h; done)
      | (simp only [attrValue] at h; split at h <;> simp at h <;> split at h <;> simp at h; done)
      | (simp only [attrValue] at h; split at h <;> simp at h; done)
      | (cases tz <;> simp [attrValue] at h; done)
      | (cases tz <;> simp [attrValue] at h; split at h <;> simp at h)
  · simp only [attrTypeFn] at hf
    split at hf <;> first
      | (cases hf; done)
      | (simp [attrValue] at h; done)
      | (cases d <;> simp [attrValue, Env.shortInt] at h; done)
      | (cases d <;> simp [attrValue, Env.shortInt] at h
         split at h <;> simp at h
         rename_i hl
         first | exact .floor hl | exact .ceiling hl)
      | (cases d with
         | inf n => cases n <;> simp [attrValue] at h
         | _ => simp [attrValue] at h
         done)
      | (simp only [attrValue, leaks_bind] at h
         rcases h with h | ⟨_, -, h⟩
         · exact absurd h (assertInteger_no_leak trivial)
         · simp at h)
  · simp only [attrTypeFn] at hf
    split at hf <;> first
      | (cases hf; done)
      | (simp [attrValue] at h; done)
  · simp only [attrTypeFn] at hf
    split at hf <;> first
      | (cases hf; done)
      | (simp [attrValue, Value.members, leaks_bind] at h; done)
      | (exact .toFlt h)
      | (exact toSet_leaks (env := env) rfl h)
      | (exact .toInt h)
  · simp only [attrTypeFn] at hf
    split at hf <;> first
      | (cases hf; done)
      | (simp [attrValue] at h; done)
  · simp only [attrTypeFn] at hf
    split at hf <;> first
      | (cases hf; done)
      | (simp [attrValue, Value.members, leaks_bind] at h; done)
      | (exact toSet_leaks (env := env) rfl h)
  · simp only [attrTypeFn] at hf
    split at hf <;> first
      | (cases hf; done)
      | (simp [attrValue, Value.members, leaks_bind] at h; done)
      | (exact toSet_leaks (env := env) rfl h)

theorem foreign_tuple {k : SeqKind} {xs : List Value} (h : (Value.seq k xs).Foreign) : ∃ x ∈ xs, x.Foreign := by
  cases h with
  | seq hx hf => exact ⟨_, hx, hf⟩
theorem foreign_set {xs : List Value} (h : (Value.set xs).Foreign) : ∃ x ∈ xs, x.Foreign := by
  cases h with
  | set hx hf => exact ⟨_, hx, hf⟩

theorem setAdd_mem' {off : TzDb} {xs : List Value} {x y : Value} (h : y ∈ setAdd off xs x) : y ∈ xs ∨ y = x := by
  unfold setAdd at h
  split at h
  · exact .inl h
  · simpa using h

theorem setOfList_sub {off : TzDb} {xs ys : List Value} (h : setOfList off xs = .ok ys) : ∀ y ∈ ys, y ∈ xs := by
  unfold setOfList at h
  split at h
  · cases h
    have : ∀ (zs acc : List Value), ∀ y ∈ zs.foldl (setAdd off) acc, y ∈ acc ∨ y ∈ zs := by
      intro zs
      induction zs with
      | nil => intro acc y hy; exact .inl hy
      | cons z zs ih =>
        intro acc y hy
        rcases ih _ y hy with h | h
        · rcases setAdd_mem' h with h | rfl
          · exact .inl h
          · simp
        · simp [h]
    intro y hy
    rcases this xs [] y hy with h | h
    · simp at h
    · exact h
  · cases h

theorem members_foreign {v x : Value} {xs : List Value} (h : v.members = .ok xs) (hx : x ∈ xs) (hf : x.Foreign) :
    v.Foreign := by
  cases v <;> simp only [Value.members] at h <;> cases h
  · obtain ⟨c, -, rfl⟩ := List.mem_map.1 hx; cases hf
  · obtain ⟨c, -, rfl⟩ := List.mem_map.1 hx; cases hf
  · exact .seq hx hf
  · exact .set hx hf
  · obtain ⟨p, hp, rfl⟩ := List.mem_map.1 hx; exact .key hp hf

theorem stringToFlt_foreign {env : Env} {t : String} {r : Value} (h : stringToFlt env t = .ok r) : ¬r.Foreign := by
  intro hf
  unfold stringToFlt at h
  simp only at h
  split at h
  · split at h
    · cases h; cases hf
    · cases h
  · split at h
    · cases h; cases hf
    · split at h
      · split at h
        · split at h
          · cases h
          · cases h; cases hf
        · cases h; cases hf
      · cases h; cases hf

theorem attrValue_foreign {env : Env} {v r : Value} {k : AttrKind} {name : String}
    (h : attrValue env k name v = .ok r) (hf : r.Foreign) : v.Foreign := by
  unfold attrValue at h
  split at h
  all_goals first
    | (cases h; cases hf; done)
    | (cases h; exact hf)
    | (split at h <;> first | (cases h; cases hf; done) | (cases h; done) | (cases shortInt_ok h; cases hf; done))
    | (split at h <;> first
        | (simp only [except_bind_ok] at h
           obtain ⟨w, hw, h⟩ := h
           cases shortInt_ok h
           exact absurd hf (stringToFlt_foreign hw))
        | (cases h; done))
    | (simp only [except_bind_ok] at h; obtain ⟨_, -, h⟩ := h; cases h; exact hf)
    | skip
  · split at h
    · simp only [except_bind_ok] at h
      obtain ⟨w, hw, _, -, h⟩ := h
      cases shortInt_ok h
      exact absurd hf (stringToFlt_foreign hw)
    · cases h
  · split at h <;> first | (cases h; cases hf; done) | (split at h <;> cases h; cases hf; done) | (cases h; done)
  · split at h
    · cases h
      obtain ⟨x, hx, hx'⟩ := foreign_tuple hf
      obtain ⟨p, hp, rfl⟩ := List.mem_map.1 hx
      exact .key hp hx'
    · cases h
  · split at h
    · cases h
      obtain ⟨x, hx, hx'⟩ := foreign_tuple hf
      obtain ⟨p, hp, rfl⟩ := List.mem_map.1 hx
      exact .val hp hx'
    · cases h
  · split at h
    · split at h <;> (cases h; cases hf)
    · cases h; cases hf
    · cases h
  · simp only [except_bind_ok] at h
    obtain ⟨xs, hxs, h⟩ := h
    cases h
    obtain ⟨x, hx, hx'⟩ := foreign_tuple hf
    exact members_foreign hxs hx hx'
  · simp only [except_bind_ok] at h
    obtain ⟨xs, hxs, ys, hys, h⟩ := h
    cases h
    obtain ⟨x, hx, hx'⟩ := foreign_set hf
    exact members_foreign hxs (setOfList_sub hys x hx) hx'
  · cases h

/-- the table for builtin attributes is complete -/
theorem attr_leaks {env : Env} {v : Value} {name : String} (hv : v.Normal)
    (h : Except.Leaks (resolveAttr env v name)) : AttrLeak env v name := by
  unfold resolveAttr at h
  cases ht : fromValue v with
  | error e =>
    rw [ht] at h
    rcases fromValue_error v ht with rfl | rfl <;> simp at h
  | ok t =>
    rw [ht] at h
    have hnf : ¬v.Foreign := fun hf => hf.untyped t ht
    simp only at h
    split at h
    · simp at h
    · rename_i k hk
      split at h
      · simp at h
      · rename_i f hf
        simp only [leaks_bind] at h
        rcases h with h | ⟨r, hr, h⟩
        · exact attrValue_leaks hv ht hk hf h
        · exfalso
          have hrf : ¬r.Foreign := fun h => hnf (attrValue_foreign hr h)
          have hcf : ¬(coerce env.utcoffset r).Foreign := fun h => hrf (foreign_of_coerce _ _ h)
          rcases h with h | ⟨c, hc, h⟩
          · unfold coerceVerify at h
            rw [leaks_bind] at h
            rcases h with h | ⟨_, -, h⟩
            · exact hcf (leaks_fromValue h)
            · simp at h
          · simp only [coerceVerify, except_bind_ok] at hc
            obtain ⟨_, -, hc⟩ := hc
            cases hc
            rcases h with h | ⟨_, -, h⟩
            · exact hcf (leaks_fromValue h)
            · split at h <;> simp at h

/-! ## Origins of an exception in an expression -/

/-- a state during an evaluation, with these comprehension variables -/
def During (S : List Assignment) (s : St) : Prop := s.scopes = S ∧ (s.groups = .none ∨ GroupsValue s.groups)

/-- a computation gives `v` from some state with these comprehension variables -/
def MGives (S : List Assignment) (m : M Value) (v : Value) : Prop :=
  ∃ s s', During S s ∧ m s = (.ok v, s')

/-- a computation raises something other than an EngineError from some state with these comprehension variables -/
def MLeaks {α : Type} (S : List Assignment) (m : M α) : Prop :=
  ∃ s s' k, During S s ∧ m s = (.error (.py k), s')

section
variable (env : Env) (dc : DecCtx) (thing : Value)

/-- **Specification.** `v` is a value the expression can take with these comprehension variables. -/
def CanBe (S : List Assignment) (e : Expr) (v : Value) : Prop := MGives S (eval env dc thing e) v

mutual
/-- **Specification.** Evaluating the expression applies an operation to values for which it raises something other
than an EngineError, with the given comprehension variables.  Branches that are not evaluated do not
count. -/
def Fault : Expr → List Assignment → Prop
  | .lit _ _, _ => False
  | .array xs, S => FaultAny xs S
  | .set xs, S => FaultAny xs S ∨ ∃ x ∈ xs, ∃ v, CanBe env dc thing S x v ∧ v.hashable = false
  | .mapping kvs, S => FaultPairs kvs S ∨
      ∃ p ∈ kvs, ∃ v, CanBe env dc thing S p.1 v ∧ (v.Foreign ∨ v.hashable = false)
  | .bin op l r, S => Fault l S ∨ ∃ a, CanBe env dc thing S l a ∧ (LeftLeak op a ∨
      (op.Reaches a ∧ (Fault r S ∨ ∃ b, CanBe env dc thing S r b ∧ OpLeak env dc op a b)))
  | .comp r var it c, S => Fault it S ∨ ∃ v, CanBe env dc thing S it v ∧ (v.Foreign ∨ ∃ xs, v.members = .ok xs ∧
      ∃ x ∈ xs, Fault c (S ++ [⟨var, x, .undefined⟩]) ∨
        ((∃ w, CanBe env dc thing (S ++ [⟨var, x, .undefined⟩]) c w ∧ w.truthy = true) ∧
          Fault r (S ++ [⟨var, x, .undefined⟩])))
  | .contains c m, S => Fault c S ∨ ∃ v, CanBe env dc thing S c v ∧ (v.Foreign ∨ Fault m S ∨
      ∃ w, CanBe env dc thing S m w ∧ InLeak v w)
  | .getAttr o name safe, S => Fault o S ∨ ∃ v, CanBe env dc thing S o v ∧ AttrLeak env v name
  | .getItem c i _, S => Fault c S ∨ ∃ v, CanBe env dc thing S c v ∧ v ≠ .none ∧ (Fault i S ∨
      ∃ w, CanBe env dc thing S i w ∧ ItemLeak v w)
  | .getSlice c a b _, S => Fault c S ∨ ∃ v, CanBe env dc thing S c v ∧ v ≠ .none ∧
      (Fault a S ∨ Fault b S ∨ SliceLeak v)
  | .sym name rt builtin, S => (builtin = false ∧ ∃ k, env.resolver thing name = .error (.py k)) ∨
      (rt ≠ .undefined ∧ ∃ v, v.Foreign ∧
        (builtin = false ∧ ((∃ a ∈ S, a.name = name ∧ a.value = v) ∨ env.resolver thing name = .ok v) ∨
         env.defaultValue = some v))
  | .call f args, S => Fault f S ∨ ∃ fv, CanBe env dc thing S f fv ∧ (FaultAny args S ∨
      ∃ vs, List.Forall₂ (CanBe env dc thing S) args vs ∧
        ((f.rt ≠ .undefined ∧ ∃ v ∈ vs, v.Foreign) ∨ ∃ s s' r, callFn env dc fv vs s = (.ok r, s') ∧ r.Foreign))
  | .tern c t f, S => Fault c S ∨ ∃ v, CanBe env dc thing S c v ∧
      ((v.truthy = true ∧ Fault t S) ∨ (v.truthy = false ∧ Fault f S))
  | .not e, S => Fault e S
  | .neg e, S => Fault e S ∨ ∃ v, CanBe env dc thing S e v ∧ NegLeak dc v
/-- one of the expressions -/
def FaultAny : List Expr → List Assignment → Prop
  | [], _ => False
  | x :: xs, S => Fault x S ∨ FaultAny xs S
/-- one of the keys or values -/
def FaultPairs : List (Expr × Expr) → List Assignment → Prop
  | [], _ => False
  | (k, v) :: rest, S => Fault k S ∨ Fault v S ∨ FaultPairs rest S
end
end

/-- leaves variables and the kind of groups alone -/
def Stable {α : Type} (m : M α) : Prop := ∀ S s, During S s → During S (m s).2

theorem stable_closed : UnClosed @Stable where
  lift x := fun S s h => h
  bind := by
    intro α β m f hm hf S s h
    have h1 := hm S s h
    rw [M.bind_apply]
    rcases hx : m s with ⟨e | a, s1⟩
    · rw [hx] at h1; exact h1
    · rw [hx] at h1; exact hf a S s1 h1
  withScope := by
    intro α a m hm S s h
    have h1 := hm (S ++ [a]) { s with scopes := s.scopes ++ [a] } ⟨by simp [h.1], h.2⟩
    refine ⟨?_, h1.2⟩
    show (m { s with scopes := s.scopes ++ [a] }).2.scopes.dropLast = S
    rw [h1.1]; simp
  setGroups := fun g hg S s h => ⟨h.1, .inr hg⟩
  logCall := fun f args α x S s h => h
  rethrow := by
    intro α e m hm S s h
    have h1 := hm S s h
    unfold M.catchErr
    rcases hx : m s with ⟨e' | a, s1⟩ <;> rw [hx] at h1 <;> exact h1

theorem framed_keeps {α : Type} {m : M α} (h : ∀ s, (m s).2.scopes = s.scopes ∧ (m s).2.groups = s.groups) : Stable m := by
  intro S s hs
  obtain ⟨h1, h2⟩ := h s
  exact ⟨by rw [h1]; exact hs.1, by rw [h2]; exact hs.2⟩

theorem ctxResolve_keeps (env : Env) (thing : Value) (name : String) (b : Bool) (s : St) :
    (ctxResolve env thing name b s).2.scopes = s.scopes ∧ (ctxResolve env thing name b s).2.groups = s.groups := by
  unfold ctxResolve; split <;> split <;> simp

theorem evalSymbol_stable (env : Env) (thing : Value) (name : String) (rt : DataType) (b : Bool) :
    Stable (evalSymbol env thing name rt b) := by
  unfold evalSymbol
  refine stable_closed.bind ?_ fun v => stable_closed.lift _
  intro S s h
  obtain ⟨h1, h2⟩ := ctxResolve_keeps env thing name b s
  have hd : During S (ctxResolve env thing name b s).2 := ⟨by rw [h1]; exact h.1, by rw [h2]; exact h.2⟩
  unfold M.catchErr
  rcases hx : ctxResolve env thing name b s with ⟨e' | a, s1⟩ <;> rw [hx] at hd
  · simp only
    cases isSymErr e' <;> cases env.defaultValue <;> exact hd
  · exact hd

theorem evalGetAttr_stable (env : Env) (o : Value) (name : String) : Stable (evalGetAttr env o name) := by
  intro S s h
  obtain ⟨h1, h2⟩ := ctxResolve_keeps env o name false s
  have hd : During S (ctxResolve env o name false s).2 := ⟨by rw [h1]; exact h.1, by rw [h2]; exact h.2⟩
  unfold evalGetAttr
  split
  · exact h
  · split
    · rcases hx : ctxResolve env o name false s with ⟨e' | a, s1⟩ <;> rw [hx] at hd
      · simp only
        split
        · split <;> exact hd
        · exact hd
      · exact hd
    · exact h

theorem eval_stable (env : Env) (dc : DecCtx) (thing : Value) (e : Expr) : Stable (eval env dc thing e) :=
  eval_un stable_closed dc (fun n rt b _ => evalSymbol_stable env thing n rt b)
    (fun o n _ => evalGetAttr_stable env o n) e e.allNames_trivial

theorem stable_ok {α : Type} {m : M α} (h : Stable m) {S : List Assignment} {s s' : St} {x : Except Err α}
    (hs : During S s) (hm : m s = (x, s')) : During S s' := by
  have := h S s hs; rw [hm] at this; exact this

theorem mem_evals {env : Env} {dc : DecCtx} {thing : Value} : ∀ {es : List Expr} {m : M Value},
    m ∈ evals env dc thing es → ∃ e ∈ es, m = eval env dc thing e
  | [], _, h => by simp [evals] at h
  | e :: es, m, h => by
    simp only [evals, List.mem_cons] at h
    rcases h with rfl | h
    · exact ⟨e, by simp, rfl⟩
    · obtain ⟨e', he, rfl⟩ := mem_evals h; exact ⟨e', by simp [he], rfl⟩

theorem evals_stable {env : Env} {dc : DecCtx} {thing : Value} {es : List Expr} :
    ∀ m ∈ evals env dc thing es, Stable m := by
  intro m hm
  obtain ⟨e, -, rfl⟩ := mem_evals hm
  exact eval_stable _ _ _ _

theorem mem_evalPairs {env : Env} {dc : DecCtx} {thing : Value} : ∀ {es : List (Expr × Expr)} {m : M Value × M Value},
    m ∈ evalPairs env dc thing es → ∃ e ∈ es, m = (eval env dc thing e.1, eval env dc thing e.2)
  | [], _, h => by simp [evalPairs] at h
  | (k, v) :: es, m, h => by
    simp only [evalPairs, List.mem_cons] at h
    rcases h with rfl | h
    · exact ⟨(k, v), by simp, rfl⟩
    · obtain ⟨e', he, rfl⟩ := mem_evalPairs h; exact ⟨e', List.mem_cons_of_mem _ he, rfl⟩

theorem seqM_leaks {S : List Assignment} : ∀ {ms : List (M Value)}, (∀ m ∈ ms, Stable m) → MLeaks S (seqM ms) →
    ∃ m ∈ ms, MLeaks S m
  | [], _, ⟨s, s', k, _, h⟩ => by cases h
  | m :: ms, hst, ⟨s, s', k, hs, h⟩ => by
    simp only [seqM, M.bind_eq_error] at h
    rcases h with h | ⟨a, s1, h1, h | ⟨vs, s2, h2, h⟩⟩
    · exact ⟨m, by simp, s, s', k, hs, h⟩
    · obtain ⟨m', hm', hl⟩ := seqM_leaks (fun m hm => hst m (by simp [hm]))
        ⟨s1, s', k, stable_ok (hst m (by simp)) hs h1, h⟩
      exact ⟨m', by simp [hm'], hl⟩
    · cases h

theorem seqM_stable : ∀ {ms : List (M Value)}, (∀ m ∈ ms, Stable m) → Stable (seqM ms)
  | [], _ => stable_closed.lift (.ok [])
  | m :: ms, hst => by
    refine stable_closed.bind (hst m (by simp)) fun a => stable_closed.bind
      (seqM_stable fun m hm => hst m (by simp [hm])) fun vs => stable_closed.lift (.ok _)

theorem seqM_canBe {env : Env} {dc : DecCtx} {thing : Value} {S : List Assignment} : ∀ {es : List Expr} {vs : List Value}
    {s s' : St}, During S s → seqM (evals env dc thing es) s = (.ok vs, s') →
    List.Forall₂ (CanBe env dc thing S) es vs
  | [], vs, s, s', hs, h => by
    simp only [evals, seqM, M.pure_eq_ok] at h
    obtain ⟨rfl, -⟩ := h
    exact .nil
  | e :: es, vs, s, s', hs, h => by
    simp only [evals, seqM, M.bind_eq_ok, M.pure_eq_ok] at h
    obtain ⟨v, s1, h1, vs', s2, h2, rfl, -⟩ := h
    exact .cons ⟨s, s1, hs, h1⟩ (seqM_canBe (stable_ok (eval_stable _ _ _ _) hs h1) h2)

theorem setM_leaks {S : List Assignment} {off : TzDb} : ∀ {ms : List (M Value)} {acc : List Value}, (∀ m ∈ ms, Stable m) →
    MLeaks S (setM off acc ms) → ∃ m ∈ ms, MLeaks S m ∨ ∃ v, MGives S m v ∧ v.hashable = false
  | [], _, _, ⟨s, s', k, _, h⟩ => by cases h
  | m :: ms, acc, hst, ⟨s, s', k, hs, h⟩ => by
    simp only [setM, M.bind_eq_error] at h
    rcases h with h | ⟨a, s1, h1, h⟩
    · exact ⟨m, by simp, .inl ⟨s, s', k, hs, h⟩⟩
    · split at h
      · obtain ⟨m', hm', hl⟩ := setM_leaks (fun m hm => hst m (by simp [hm]))
          ⟨s1, s', k, stable_ok (hst m (by simp)) hs h1, h⟩
        exact ⟨m', by simp [hm'], hl⟩
      · rename_i hh
        exact ⟨m, by simp, .inr ⟨a, ⟨s, s1, hs, h1⟩, by simpa using hh⟩⟩

theorem mapKeysM_leaks {S : List Assignment} {off : TzDb} : ∀ {ms : List (M Value × M Value)} {acc : List (Value × M Value)},
    (∀ m ∈ ms, Stable m.1) → MLeaks S (mapKeysM off acc ms) →
    ∃ m ∈ ms, MLeaks S m.1 ∨ ∃ v, MGives S m.1 v ∧ (v.Foreign ∨ v.hashable = false)
  | [], _, _, ⟨s, s', k, _, h⟩ => by cases h
  | (m, w) :: ms, acc, hst, ⟨s, s', k, hs, h⟩ => by
    simp only [mapKeysM, M.bind_eq_error] at h
    rcases h with h | ⟨a, s1, h1, h⟩
    · exact ⟨(m, w), by simp, .inl ⟨s, s', k, hs, h⟩⟩
    · rcases h with h | ⟨t, s2, h2, h⟩
      · rw [M.lift_eq_error] at h
        exact ⟨(m, w), by simp, .inr ⟨a, ⟨s, s1, hs, h1⟩, .inl (foreign_of_error _ h.1)⟩⟩
      · rw [M.lift_eq_ok] at h2
        obtain ⟨-, rfl⟩ := h2
        split at h
        · cases h
        · split at h
          · obtain ⟨m', hm', hl⟩ := mapKeysM_leaks (fun m hm => hst m (List.mem_cons_of_mem _ hm))
              ⟨s1, s', k, stable_ok (hst (m, w) (by simp)) hs h1, h⟩
            exact ⟨m', List.mem_cons_of_mem _ hm', hl⟩
          · rename_i hh
            exact ⟨(m, w), by simp, .inr ⟨a, ⟨s, s1, hs, h1⟩, .inr (by simpa using hh)⟩⟩

theorem mapKeysM_vals {off : TzDb} : ∀ {ms : List (M Value × M Value)} {acc ks : List (Value × M Value)} {s s' : St},
    mapKeysM off acc ms s = (.ok ks, s') → ∀ p ∈ ks, (∃ q ∈ acc, q.2 = p.2) ∨ ∃ q ∈ ms, q.2 = p.2
  | [], acc, ks, s, s', h, p, hp => by
    simp only [mapKeysM, M.pure_eq_ok] at h
    obtain ⟨rfl, -⟩ := h
    exact .inl ⟨p, hp, rfl⟩
  | (m, w) :: ms, acc, ks, s, s', h, p, hp => by
    simp only [mapKeysM, M.bind_eq_ok] at h
    obtain ⟨a, s1, h1, t, s2, h2, h⟩ := h
    split at h
    · cases h
    · split at h
      · rcases mapKeysM_vals h p hp with ⟨q, hq, he⟩ | ⟨q, hq, he⟩
        · rcases (mapInsert_mem off acc a w q hq).2 with hw | ⟨q', hq', he'⟩
          · exact .inr ⟨(m, w), by simp, by rw [← he, hw]⟩
          · exact .inl ⟨q', hq', by rw [← he, he']⟩
        · exact .inr ⟨q, List.mem_cons_of_mem _ hq, he⟩
      · cases h

theorem mapKeysM_stable {off : TzDb} : ∀ {ms : List (M Value × M Value)} {acc : List (Value × M Value)},
    (∀ m ∈ ms, Stable m.1) → Stable (mapKeysM off acc ms)
  | [], acc, _ => stable_closed.lift (.ok acc)
  | (m, w) :: ms, acc, hst => by
    refine stable_closed.bind (hst (m, w) (by simp)) fun a => stable_closed.bind (stable_closed.lift _) fun t => ?_
    split
    · exact stable_closed.lift (.error _)
    · split
      · exact mapKeysM_stable fun m hm => hst m (List.mem_cons_of_mem _ hm)
      · exact stable_closed.lift (.error _)

theorem mapValsM_leaks {S : List Assignment} : ∀ {ks : List (Value × M Value)}, (∀ p ∈ ks, Stable p.2) →
    MLeaks S (mapValsM ks) → ∃ p ∈ ks, MLeaks S p.2
  | [], _, ⟨s, s', k, _, h⟩ => by cases h
  | (key, m) :: ms, hst, ⟨s, s', k, hs, h⟩ => by
    simp only [mapValsM, M.bind_eq_error] at h
    rcases h with h | ⟨a, s1, h1, h | ⟨vs, s2, h2, h⟩⟩
    · exact ⟨(key, m), by simp, s, s', k, hs, h⟩
    · obtain ⟨m', hm', hl⟩ := mapValsM_leaks (fun m hm => hst m (List.mem_cons_of_mem _ hm))
        ⟨s1, s', k, stable_ok (hst (key, m) (by simp)) hs h1, h⟩
      exact ⟨m', List.mem_cons_of_mem _ hm', hl⟩
    · cases h

theorem compM_leaks {S : List Assignment} {var : String} {c r : M Value} (hc : Stable c) (hr : Stable r) :
    ∀ {xs : List Value}, MLeaks S (compM var c r xs) → ∃ x ∈ xs, MLeaks (S ++ [⟨var, x, .undefined⟩]) c ∨
      ((∃ w, MGives (S ++ [⟨var, x, .undefined⟩]) c w ∧ w.truthy = true) ∧ MLeaks (S ++ [⟨var, x, .undefined⟩]) r)
  | [], ⟨s, s', k, _, h⟩ => by cases h
  | x :: xs, ⟨s, s', k, hs, h⟩ => by
    simp only [compM, M.bind_eq_error] at h
    have hs1 : During (S ++ [⟨var, x, .undefined⟩]) { s with scopes := s.scopes ++ [⟨var, x, .undefined⟩] } :=
      ⟨by simp [hs.1], hs.2⟩
    have hbody : Stable (do
      let c ← c
      if c.truthy then do
        let v ← r
        pure (some v)
      else pure none) := by
      refine stable_closed.bind hc fun v => ?_
      split
      · exact stable_closed.bind hr fun v => stable_closed.lift (.ok _)
      · exact stable_closed.lift (.ok _)
    rcases h with h | ⟨a, s1, h1, h | ⟨vs, s2, h2, h⟩⟩
    · refine ⟨x, by simp, ?_⟩
      simp only [M.withScope, Prod.mk.injEq] at h
      obtain ⟨h, -⟩ := h
      rcases hx : (do
        let c ← c
        if c.truthy then do
          let v ← r
          pure (some v)
        else pure none : M (Option Value)) { s with scopes := s.scopes ++ [⟨var, x, .undefined⟩] } with ⟨y, s2⟩
      rw [hx] at h
      simp only at h
      subst h
      rw [M.bind_eq_error] at hx
      rcases hx with hx | ⟨w, s3, h3, hx⟩
      · exact .inl ⟨_, _, _, hs1, hx⟩
      · split at hx
        · rename_i hw
          rw [M.bind_eq_error] at hx
          rcases hx with hx | ⟨_, _, _, hx⟩
          · exact .inr ⟨⟨w, ⟨_, _, hs1, h3⟩, hw⟩, _, _, _, stable_ok hc hs1 h3, hx⟩
          · cases hx
        · cases hx
    · obtain ⟨m', hm', hl⟩ := compM_leaks hc hr
        ⟨s1, s', k, stable_ok (stable_closed.withScope _ hbody) hs h1, h⟩
      exact ⟨m', by simp [hm'], hl⟩
    · cases h

theorem faultAny_of {env : Env} {dc : DecCtx} {thing : Value} {S : List Assignment} : ∀ {es : List Expr} {e : Expr},
    e ∈ es → Fault env dc thing e S → FaultAny env dc thing es S
  | x :: xs, e, he, h => by
    rcases List.mem_cons.1 he with rfl | he
    · exact .inl h
    · exact .inr (faultAny_of he h)
theorem faultPairs_of {env : Env} {dc : DecCtx} {thing : Value} {S : List Assignment} : ∀ {es : List (Expr × Expr)}
    {e : Expr × Expr}, e ∈ es → Fault env dc thing e.1 S ∨ Fault env dc thing e.2 S → FaultPairs env dc thing es S
  | (k, v) :: xs, e, he, h => by
    rcases List.mem_cons.1 he with rfl | he
    · rcases h with h | h
      · exact .inl h
      · exact .inr (.inl h)
    · exact .inr (.inr (faultPairs_of he h))

/-- **Specification.** Only EngineErrors come out of the resolver. -/
def Env.PoliteResolver (env : Env) : Prop := ∀ o name k, env.resolver o name ≠ .error (.py k)

theorem ctxResolve_leaks {env : Env} {thing : Value} {name : String} {b : Bool} {s s' : St}
    {k : PyErr} (h : ctxResolve env thing name b s = (.error (.py k), s')) :
    b = false ∧ env.resolver thing name = .error (.py k) := by
  unfold ctxResolve at h
  split at h
  · split at h <;> simp at h
  · rename_i hb
    split at h
    · simp at h
    · simp only [Prod.mk.injEq] at h; exact ⟨by simpa using hb, h.1⟩

theorem evalGetAttr_leaks {env : Env} {o : Value} (ho : o.Normal) {name : String} {s s' : St}
    {k : PyErr} (h : evalGetAttr env o name s = (.error (.py k), s')) : AttrLeak env o name := by
  unfold evalGetAttr at h
  cases hr : resolveAttr env o name with
  | ok v => rw [hr] at h; simp at h
  | error e =>
    rw [hr] at h
    simp only at h
    split at h
    · rename_i he
      rcases hx : ctxResolve env o name false s with ⟨e' | a, s1⟩ <;> rw [hx] at h
      · simp only at h
        split at h
        · split at h
          · simp at h
          · simp only [Prod.mk.injEq, Except.error.injEq] at h
            rw [h.1] at he; simp [isAttrErr] at he
        · simp only [Prod.mk.injEq, Except.error.injEq] at h
          obtain ⟨rfl, rfl⟩ := h
          exact .resolver (ctxResolve_leaks hx).2
      · simp at h
    · simp only [Prod.mk.injEq, Except.error.injEq] at h
      obtain ⟨rfl, rfl⟩ := h
      exact attr_leaks ho ⟨k, hr⟩

theorem not_leaks_ite {α : Type} {c : Prop} [Decidable c] {a b : Except Err α} (ha : ¬Except.Leaks a) (hb : ¬Except.Leaks b) :
    ¬Except.Leaks (if c then a else b) := by
  split
  · exact ha
  · exact hb

theorem checkSymbol_leaks {name : String} {rt : DataType} {v : Value} (h : Except.Leaks (checkSymbol name rt v)) :
    rt ≠ .undefined ∧ v.Foreign := by
  have hrt : rt ≠ .undefined := by
    rintro rfl; simp [checkSymbol, DataType.eq] at h
  refine ⟨hrt, ?_⟩
  unfold checkSymbol at h
  split at h
  · simp at h
  · rw [leaks_bind] at h
    rcases h with h | ⟨vt, -, h⟩
    · exact leaks_fromValue h
    · exfalso
      simp only at h
      revert h
      have no : ∀ e : EngErr, ¬Except.Leaks (.error (.eng e) : Except Err Value) := by intro e; simp
      have ok : ∀ w : Value, ¬Except.Leaks (.ok w : Except Err Value) := by intro w; simp
      have hm : ¬Except.Leaks (if DataType.eq vt .null then (.ok v : Except Err Value) else .error (.eng (.symbolType name))) :=
        not_leaks_ite (ok _) (no _)
      refine not_leaks_ite ?_ hm
      refine not_leaks_ite (ok _) ?_
      refine not_leaks_ite (ok _) ?_
      refine not_leaks_ite (no _) ?_
      exact not_leaks_ite (ok _) hm

theorem groupsValue_not_foreign {g : Value} (h : g = .none ∨ GroupsValue g) : ¬g.Foreign := by
  rintro hf
  rcases h with rfl | ⟨xs, rfl, hx⟩
  · cases hf
  · obtain ⟨x, hm, hf⟩ := foreign_tuple hf
    rcases hx x hm with rfl | ⟨s, rfl⟩ <;> cases hf

theorem builtinValue_foreign {env : Env} {g v : Value} {name : String} (h : builtinValue env g name = some v)
    (hf : v.Foreign) : v = g := by
  unfold builtinValue at h
  split at h
  · cases h; cases hf
  · cases h; cases hf
  · cases h; cases hf
  · cases h; cases hf
  · cases h; rfl
  · rw [Option.map_eq_some_iff] at h
    obtain ⟨b, -, rfl⟩ := h
    cases hf

theorem evalSymbol_leaks {env : Env} {dc : DecCtx} {thing : Value} {name : String}
    {rt : DataType} {b : Bool} {S : List Assignment} (h : MLeaks S (evalSymbol env thing name rt b)) :
    Fault env dc thing (.sym name rt b) S := by
  obtain ⟨s, s', k, hs, h⟩ := h
  simp only [evalSymbol, M.bind_eq_error] at h
  rcases h with h | ⟨v, s1, h1, h⟩
  · left
    unfold M.catchErr at h
    rcases hx : ctxResolve env thing name b s with ⟨e' | a, s1⟩ <;> rw [hx] at h
    · simp only at h
      cases hse : isSymErr e' <;> cases hd : env.defaultValue <;> simp [hse, hd] at h <;>
        (obtain ⟨rfl, rfl⟩ := h; exact ⟨(ctxResolve_leaks hx).1, k, (ctxResolve_leaks hx).2⟩)
    · simp at h
  · rw [M.lift_eq_error] at h
    obtain ⟨hrt, hf⟩ := checkSymbol_leaks ⟨k, h.1⟩
    have hvf := foreign_of_newValue env hf
    refine .inr ⟨hrt, v, hvf, ?_⟩
    unfold M.catchErr at h1
    rcases hx : ctxResolve env thing name b s with ⟨e' | a, s2⟩ <;> rw [hx] at h1
    · simp only at h1
      cases hse : isSymErr e' <;> cases hd : env.defaultValue <;> simp [hse, hd] at h1
      rw [h1.1]; exact .inr rfl
    · simp only [Prod.mk.injEq, Except.ok.injEq] at h1
      obtain ⟨rfl, rfl⟩ := h1
      left
      unfold ctxResolve at hx
      cases b with
      | true =>
        simp only [if_true] at hx
        split at hx
        · rename_i hb
          cases hx
          exact absurd (builtinValue_foreign hb hvf ▸ hvf) (groupsValue_not_foreign hs.2)
        · cases hx
      | false =>
        refine ⟨rfl, ?_⟩
        simp only [Bool.false_eq_true, if_false] at hx
        split at hx
        · rename_i a' ha
          cases hx
          left
          refine ⟨a', ?_, ?_, rfl⟩
          · rw [← hs.1]; exact List.mem_of_find?_eq_some ha
          · simpa using List.find?_some ha
        · simp only [Prod.mk.injEq] at hx
          exact .inr hx.1

theorem validateArgs_leaks : ∀ {vs : List Value} {ts : List DataType}, Except.Leaks (validateArgs vs ts) → ∃ v ∈ vs, v.Foreign
  | [], _, h => by simp [validateArgs] at h
  | v :: vs, [], h => by simp [validateArgs] at h
  | v :: vs, t :: ts, h => by
    simp only [validateArgs, leaks_bind] at h
    rcases h with h | ⟨vt, -, h⟩
    · exact ⟨v, by simp, leaks_fromValue h⟩
    · split at h
      · obtain ⟨w, hw, hf⟩ := validateArgs_leaks h
        exact ⟨w, by simp [hw], hf⟩
      · simp [badArg] at h

theorem validateCallValues_leaks {ft : DataType} {vs : List Value} (h : Except.Leaks (validateCallValues ft vs)) :
    ∃ v ∈ vs, v.Foreign := by
  by_contra hno
  revert h
  have hb : ¬Except.Leaks (badArg : Except Err Unit) := by simp [badArg]
  unfold validateCallValues
  cases ft with
  | function n r ats mn =>
    refine not_leaks_ite hb ?_
    cases ats with
    | none => simp
    | some ts => exact not_leaks_ite hb (fun h => hno (validateArgs_leaks h))
  | _ => simp

theorem finishCall_leaks {env : Env} {dc : DecCtx} {rt : DataType} {f : Value} {vs : List Value} {s s' : St} {k : PyErr}
    (h : finishCall env dc rt f vs s = (.error (.py k), s')) : ∃ s s' r, callFn env dc f vs s = (.ok r, s') ∧ r.Foreign := by
  simp only [finishCall, M.bind_eq_error] at h
  rcases h with h | ⟨r, s1, h1, h⟩
  · exfalso
    unfold M.catchErr at h
    rcases hx : callFn env dc f vs s with ⟨e' | a, s1⟩ <;> rw [hx] at h <;> simp at h
  · have hr : callFn env dc f vs s = (.ok r, s1) := by
      unfold M.catchErr at h1
      rcases hx : callFn env dc f vs s with ⟨e' | a, s2⟩ <;> rw [hx] at h1 <;> simp at h1
      obtain ⟨rfl, rfl⟩ := h1; rfl
    refine ⟨s, s1, r, hr, ?_⟩
    rcases h with h | ⟨c, s2, h2, h⟩
    · rw [M.lift_eq_error] at h
      have := h.1
      simp only [coerceVerify, except_bind_error] at this
      rcases this with h | ⟨_, -, h⟩
      · exact foreign_of_coerce _ _ (foreign_of_error _ h)
      · cases h
    · rw [M.lift_eq_ok] at h2
      obtain ⟨h2, rfl⟩ := h2
      simp only [coerceVerify, except_bind_ok] at h2
      obtain ⟨_, -, h2⟩ := h2
      cases h2
      rcases h with h | ⟨t, s3, h3, h⟩
      · rw [M.lift_eq_error] at h
        exact foreign_of_newValue env (foreign_of_error _ h.1)
      · split at h <;> simp at h

theorem evalSlice_leaks {env : Env} {c : Value} {a b : M Value} (hc : c.Normal) (ha : Emits Value.Normal a)
    (hb : Emits Value.Normal b) (hsa : Stable a) {S : List Assignment} (h : MLeaks S (evalSlice env c a b)) :
    MLeaks S a ∨ MLeaks S b ∨ SliceLeak c := by
  obtain ⟨s, s', k, hs, h⟩ := h
  simp only [evalSlice, M.bind_eq_error] at h
  rcases h with h | ⟨v, s1, h1, h⟩
  · exact .inl ⟨_, _, _, hs, h⟩
  rcases h with h | ⟨_, s2, h2, h⟩
  · rw [M.lift_eq_error] at h; exact absurd ⟨k, h.1⟩ (sliceArg_no_leak (ha _ _ _ h1))
  rw [M.lift_eq_ok] at h2
  obtain ⟨-, rfl⟩ := h2
  have hs1 := stable_ok hsa hs h1
  rcases h with h | ⟨w, s3, h3, h⟩
  · exact .inr (.inl ⟨_, _, _, hs1, h⟩)
  rcases h with h | ⟨_, s4, h4, h⟩
  · rw [M.lift_eq_error] at h; exact absurd ⟨k, h.1⟩ (sliceArg_no_leak (hb _ _ _ h3))
  rcases h with h | ⟨_, s5, h5, h⟩
  · rw [M.lift_eq_error] at h; exact .inr (.inr (slice_leaks hc ⟨k, h.1⟩))
  · cases h

theorem normal_of_list {es : List Expr} (h : Expr.NormalList es) : ∀ e ∈ es, e.NormalLits := by
  induction es with
  | nil => simp
  | cons x xs ih =>
    intro e he
    rcases List.mem_cons.1 he with rfl | he
    · exact h.1
    · exact ih h.2 e he

section
variable {env : Env} {dc : DecCtx} {thing : Value}

mutual
/-- **C29**, origin of exceptions: if evaluation raises something other than an EngineError then some operation in the
expression was applied to values listed in the tables. -/
theorem escape_origin : ∀ (e : Expr) {S : List Assignment}, e.NormalLits →
    MLeaks S (eval env dc thing e) → Fault env dc thing e S
  | .lit v t, S, hn, ⟨s, s', k, hs, h⟩ => by cases h
  | .array xs, S, hn, ⟨s, s', k, hs, h⟩ => by
    simp only [eval, M.bind_eq_error] at h
    rcases h with h | ⟨_, _, _, h⟩
    · obtain ⟨m, hm, hl⟩ := seqM_leaks evals_stable ⟨s, s', k, hs, h⟩
      exact escape_origins xs hn ⟨m, hm, hl⟩
    · cases h
  | .set xs, S, hn, ⟨s, s', k, hs, h⟩ => by
    simp only [eval, M.bind_eq_error] at h
    rcases h with h | ⟨_, _, _, h⟩
    · obtain ⟨m, hm, hl | ⟨v, hv, hh⟩⟩ := setM_leaks evals_stable ⟨s, s', k, hs, h⟩
      · exact .inl (escape_origins xs hn ⟨m, hm, hl⟩)
      · obtain ⟨e, he, rfl⟩ := mem_evals hm
        exact .inr ⟨e, he, v, hv, hh⟩
    · cases h
  | .mapping kvs, S, hn, ⟨s, s', k, hs, h⟩ => by
    have hst : ∀ m ∈ evalPairs env dc thing kvs, Stable m.1 ∧ Stable m.2 := by
      intro m hm; obtain ⟨e, -, rfl⟩ := mem_evalPairs hm; exact ⟨eval_stable _ _ _ _, eval_stable _ _ _ _⟩
    simp only [eval, M.bind_eq_error] at h
    rcases h with h | ⟨ks, s1, h1, h | ⟨_, _, _, h⟩⟩
    · obtain ⟨m, hm, hl | ⟨v, hv, hh⟩⟩ := mapKeysM_leaks (fun m hm => (hst m hm).1) ⟨s, s', k, hs, h⟩
      · exact .inl (escape_originp kvs hn ⟨m, hm, .inl hl⟩)
      · obtain ⟨e, he, rfl⟩ := mem_evalPairs hm
        exact .inr ⟨e, he, v, hv, hh⟩
    · have hv := mapKeysM_vals h1
      have hs1 := stable_ok (mapKeysM_stable (fun m hm => (hst m hm).1)) hs h1
      have hq : ∀ p ∈ ks, ∃ q ∈ evalPairs env dc thing kvs, q.2 = p.2 := by
        intro p hp
        rcases hv p hp with ⟨q, hq, -⟩ | h
        · simp at hq
        · exact h
      obtain ⟨p, hp, hl⟩ := mapValsM_leaks (fun p hp => by
        obtain ⟨q, hq', he⟩ := hq p hp; rw [← he]; exact (hst q hq').2) ⟨s1, s', k, hs1, h⟩
      obtain ⟨q, hq', he⟩ := hq p hp
      rw [← he] at hl
      exact .inl (escape_originp kvs hn ⟨q, hq', .inr hl⟩)
    · cases h
  | .bin op l r, S, hn, ⟨s, s', k, hs, h⟩ => by
    simp only [eval] at h
    rcases evalBin_leaks (eval_normal l hn.1) (eval_normal r hn.2) h with h | ⟨a, s1, h1, h⟩
    · exact .inl (escape_origin l hn.1 ⟨_, _, _, hs, h⟩)
    · have hs1 := stable_ok (eval_stable _ _ _ _) hs h1
      refine .inr ⟨a, ⟨_, _, hs, h1⟩, ?_⟩
      rcases h with h | ⟨hr, h | ⟨b, s2, h2, h⟩⟩
      · exact .inl h
      · exact .inr ⟨hr, .inl (escape_origin r hn.2 ⟨_, _, _, hs1, h⟩)⟩
      · exact .inr ⟨hr, .inr ⟨b, ⟨_, _, hs1, h2⟩, h⟩⟩
  | .comp r var it c, S, hn, ⟨s, s', k, hs, h⟩ => by
    simp only [eval, M.bind_eq_error] at h
    rcases h with h | ⟨v, s1, h1, h⟩
    · exact .inl (escape_origin it hn.2.1 ⟨_, _, _, hs, h⟩)
    have hs1 := stable_ok (eval_stable _ _ _ _) hs h1
    refine .inr ⟨v, ⟨_, _, hs, h1⟩, ?_⟩
    rcases h with h | ⟨t, s2, h2, h⟩
    · rw [M.lift_eq_error] at h; exact .inl (foreign_of_error _ h.1)
    rw [M.lift_eq_ok] at h2
    obtain ⟨ht, rfl⟩ := h2
    split at h
    · rename_i hit
      simp only [M.bind_eq_error] at h
      rcases h with h | ⟨xs, s3, h3, h⟩
      · exfalso
        rw [M.lift_eq_error] at h
        obtain ⟨h, -⟩ := h
        cases v <;> simp [Value.members] at h <;> cases ht <;> simp [DataType.isIterable, DataType.iterableType] at hit
      · rw [M.lift_eq_ok] at h3
        obtain ⟨hxs, rfl⟩ := h3
        right
        refine ⟨xs, hxs, ?_⟩
        rcases h with h | ⟨_, _, _, h⟩
        · obtain ⟨x, hx, hl | ⟨hw, hl⟩⟩ := compM_leaks (eval_stable env dc thing c) (eval_stable env dc thing r)
            ⟨_, _, _, hs1, h⟩
          · exact ⟨x, hx, .inl (escape_origin c hn.2.2 hl)⟩
          · exact ⟨x, hx, .inr ⟨hw, escape_origin r hn.1 hl⟩⟩
        · cases h
    · cases h
  | .contains c m, S, hn, ⟨s, s', k, hs, h⟩ => by
    simp only [eval, M.bind_eq_error] at h
    rcases h with h | ⟨v, s1, h1, h⟩
    · exact .inl (escape_origin c hn.1 ⟨_, _, _, hs, h⟩)
    have hs1 := stable_ok (eval_stable _ _ _ _) hs h1
    refine .inr ⟨v, ⟨_, _, hs, h1⟩, ?_⟩
    rcases h with h | ⟨t, s2, h2, h⟩
    · rw [M.lift_eq_error] at h; exact .inl (foreign_of_error _ h.1)
    rw [M.lift_eq_ok] at h2
    obtain ⟨ht, rfl⟩ := h2
    rcases h with h | ⟨w, s3, h3, h⟩
    · exact .inr (.inl (escape_origin m hn.2 ⟨_, _, _, hs1, h⟩))
    rcases h with h | ⟨_, _, _, h⟩
    · rw [M.lift_eq_error] at h
      exact .inr (.inr ⟨w, ⟨_, _, hs1, h3⟩, in_leaks _ (eval_normal c hn.1 _ _ _ h1) ht ⟨k, h.1⟩⟩)
    · cases h
  | .getAttr o name safe, S, hn, ⟨s, s', k, hs, h⟩ => by
    simp only [eval, M.bind_eq_error] at h
    rcases h with h | ⟨v, s1, h1, h⟩
    · exact .inl (escape_origin o hn ⟨_, _, _, hs, h⟩)
    · split at h
      · cases h
      · exact .inr ⟨v, ⟨_, _, hs, h1⟩, evalGetAttr_leaks (eval_normal o hn _ _ _ h1) h⟩
  | .getItem c i safe, S, hn, ⟨s, s', k, hs, h⟩ => by
    simp only [eval, M.bind_eq_error] at h
    rcases h with h | ⟨v, s1, h1, h⟩
    · exact .inl (escape_origin c hn.1 ⟨_, _, _, hs, h⟩)
    have hs1 := stable_ok (eval_stable _ _ _ _) hs h1
    split at h
    · split at h <;> cases h
    rename_i hv
    refine .inr ⟨v, ⟨_, _, hs, h1⟩, hv, ?_⟩
    simp only [M.bind_eq_error] at h
    rcases h with h | ⟨w, s2, h2, h⟩
    · exact .inl (escape_origin i hn.2 ⟨_, _, _, hs1, h⟩)
    rcases h with h | ⟨u, s3, h3, h⟩
    · rw [M.lift_eq_error] at h
      exact .inr ⟨w, ⟨_, _, hs1, h2⟩, item_leaks (eval_normal c hn.1 _ _ _ h1) (eval_normal i hn.2 _ _ _ h2) ⟨k, h.1⟩⟩
    · cases u with
      | none => simp only at h; split at h <;> cases h
      | some u => cases h
  | .getSlice c a b safe, S, hn, ⟨s, s', k, hs, h⟩ => by
    simp only [eval, M.bind_eq_error] at h
    rcases h with h | ⟨v, s1, h1, h⟩
    · exact .inl (escape_origin c hn.1 ⟨_, _, _, hs, h⟩)
    have hs1 := stable_ok (eval_stable _ _ _ _) hs h1
    split at h
    · split at h <;> cases h
    rename_i hv
    refine .inr ⟨v, ⟨_, _, hs, h1⟩, hv, ?_⟩
    rcases evalSlice_leaks (eval_normal c hn.1 _ _ _ h1) (eval_normal a hn.2.1) (eval_normal b hn.2.2)
      (eval_stable _ _ _ _) ⟨_, _, _, hs1, h⟩ with h | h | h
    · exact .inl (escape_origin a hn.2.1 h)
    · exact .inr (.inl (escape_origin b hn.2.2 h))
    · exact .inr (.inr h)
  | .sym name rt b, S, hn, h => evalSymbol_leaks h
  | .call f args, S, hn, ⟨s, s', k, hs, h⟩ => by
    simp only [eval, M.bind_eq_error] at h
    rcases h with h | ⟨v, s1, h1, h⟩
    · exact .inl (escape_origin f hn.1 ⟨_, _, _, hs, h⟩)
    have hs1 := stable_ok (eval_stable _ _ _ _) hs h1
    refine .inr ⟨v, ⟨_, _, hs, h1⟩, ?_⟩
    split at h
    · simp only [M.bind_eq_error] at h
      rcases h with h | ⟨vs, s2, h2, h⟩
      · obtain ⟨m, hm, hl⟩ := seqM_leaks evals_stable ⟨_, _, _, hs1, h⟩
        exact .inl (escape_origins args hn.2 ⟨m, hm, hl⟩)
      · right
        refine ⟨vs, seqM_canBe hs1 h2, ?_⟩
        unfold evalCall at h
        split at h
        · exact .inr (finishCall_leaks h)
        · rename_i hne
          rw [M.bind_eq_error] at h
          rcases h with h | ⟨_, _, _, h⟩
          · rw [M.lift_eq_error] at h
            refine .inl ⟨?_, validateCallValues_leaks ⟨k, h.1⟩⟩
            intro he; rw [he] at hne; simp [DataType.eq] at hne
          · exact .inr (finishCall_leaks h)
    · cases h
  | .tern c t f, S, hn, ⟨s, s', k, hs, h⟩ => by
    simp only [eval, M.bind_eq_error] at h
    rcases h with h | ⟨v, s1, h1, h⟩
    · exact .inl (escape_origin c hn.1 ⟨_, _, _, hs, h⟩)
    have hs1 := stable_ok (eval_stable _ _ _ _) hs h1
    refine .inr ⟨v, ⟨_, _, hs, h1⟩, ?_⟩
    split at h
    · rename_i hv
      exact .inl ⟨hv, escape_origin t hn.2.1 ⟨_, _, _, hs1, h⟩⟩
    · rename_i hv
      exact .inr ⟨by simpa using hv, escape_origin f hn.2.2 ⟨_, _, _, hs1, h⟩⟩
  | .not e, S, hn, ⟨s, s', k, hs, h⟩ => by
    simp only [eval, M.bind_eq_error] at h
    rcases h with h | ⟨v, s1, h1, h⟩
    · exact escape_origin e hn ⟨_, _, _, hs, h⟩
    · cases h
  | .neg e, S, hn, ⟨s, s', k, hs, h⟩ => by
    simp only [eval, M.bind_eq_error] at h
    rcases h with h | ⟨v, s1, h1, h⟩
    · exact .inl (escape_origin e hn ⟨_, _, _, hs, h⟩)
    · rw [M.lift_eq_error] at h
      exact .inr ⟨v, ⟨_, _, hs, h1⟩, neg_leaks (eval_normal e hn _ _ _ h1) ⟨k, h.1⟩⟩
theorem escape_origins : ∀ (es : List Expr) {S : List Assignment}, Expr.NormalList es →
    (∃ m ∈ evals env dc thing es, MLeaks S m) → FaultAny env dc thing es S
  | [], S, hn, h => by simp [evals] at h
  | e :: es, S, hn, ⟨m, hm, hl⟩ => by
    simp only [evals, List.mem_cons] at hm
    rcases hm with hm | hm
    · rw [hm] at hl; exact .inl (escape_origin e hn.1 hl)
    · exact .inr (escape_origins es hn.2 ⟨m, hm, hl⟩)
theorem escape_originp : ∀ (es : List (Expr × Expr)) {S : List Assignment},
    Expr.NormalPairs es → (∃ m ∈ evalPairs env dc thing es, MLeaks S m.1 ∨ MLeaks S m.2) →
    FaultPairs env dc thing es S
  | [], S, hn, h => by simp [evalPairs] at h
  | (k, v) :: es, S, hn, ⟨m, hm, hl⟩ => by
    simp only [evalPairs, List.mem_cons] at hm
    rcases hm with hm | hm
    · rw [hm] at hl
      rcases hl with hl | hl
      · exact .inl (escape_origin k hn.1 hl)
      · exact .inr (.inl (escape_origin v hn.2.1 hl))
    · exact .inr (.inr (escape_originp es hn.2.2 ⟨m, hm, hl⟩))
end

end

/-- **C29 (partial).** If `Rule.evaluate` raises something other than an EngineError then some operation of the built
rule was applied, during an evaluation on this thing, to operand values listed in the tables (or a
resolver or function misbehaved as listed there). -/
theorem escape_origin_partial (env : Env) (dct : DecCtx) (raw : Raw) (hp : raw.Plain) (s s1 : St) (e : Expr)
    (hb : construct env dct raw s = (.ok e, s1)) (thing : Value) (s2 s3 : St) (k : PyErr)
    (hv : ruleEval env e thing s2 = (.error (.py k), s3)) : Fault env env.decCtx thing e [] :=
  escape_origin e (built_normal raw hp (build_built raw hb))
    ⟨s2.reset, s3, k, ⟨rfl, .inl rfl⟩, hv⟩

/-! ## C29 as stated is false -/

/-- the sample environment with a resolver that raises only SymbolResolutionError -/
def politeEnv : Env := { sampleEnv with
  resolver := fun o n => match resolveItem sampleEnv.utcoffset o n with
    | .ok v => .ok v
    | .error _ => .error (.eng (.symbolResolution n)) }

theorem politeEnv_polite : politeEnv.PoliteResolver := by
  intro o n k h
  simp only [politeEnv] at h
  split at h <;> cases h

/-- the rule is constructed, and evaluating it on the thing raises something other than an EngineError -/
def Escapes (env : Env) (raw : Raw) (thing : Value) : Prop :=
  ∃ e s k s', construct env env.decCtx raw St.init = (.ok e, s) ∧ ruleEval env e thing s = (.error (.py k), s')

/-- the same, computed -/
def escapesB (env : Env) (raw : Raw) (thing : Value) : Bool :=
  match construct env env.decCtx raw St.init with
  | (.ok e, s) => match (ruleEval env e thing s).1 with
    | .error (.py _) => true
    | _ => false
  | (.error _, _) => false

theorem escapes_of {env : Env} {raw : Raw} {thing : Value} (h : escapesB env raw thing = true) :
    Escapes env raw thing := by
  unfold escapesB at h
  rcases hc : construct env env.decCtx raw St.init with ⟨e | e, s⟩ <;> rw [hc] at h
  · cases h
  · simp only at h
    rcases hr : ruleEval env e thing s with ⟨r, s'⟩
    rw [hr] at h
    rcases r with ⟨_ | k⟩ | v <;> first | cases h | skip
    exact ⟨e, s, k, s', hc, hr⟩

/-- **C29 is false as stated**, with a resolver that raises only EngineErrors: `'x' + n` on a number, `a - b` on
infinities, `a < b` on a NaN, `n in v` on a null `v`, `v[n]` on a number, `{v}` on an array,
`s.to_flt` on the text "info", a function that returns an object without data type, `1 << n` with too many digits, and a
pattern that `re.compile` gives up on. -/
theorem escape_false :
    politeEnv.PoliteResolver ∧
    Escapes politeEnv (.bin .add (.lit (.str "x")) (.sym "n" false)) (dictOf [("n", .int 1)]) ∧
    Escapes politeEnv (.bin .sub (.sym "n" false) (.sym "n" false)) (dictOf [("n", .dec (.inf false))]) ∧
    Escapes politeEnv (.bin (.cmp .lt) (.sym "n" false) (.sym "n" false)) (dictOf [("n", .dec .nan)]) ∧
    Escapes politeEnv (.contains (.sym "v" false) (.sym "n" false)) (dictOf [("v", .none), ("n", .int 1)]) ∧
    Escapes politeEnv (.getItem (.sym "n" false) (.sym "n" false) false) (dictOf [("n", .int 1)]) ∧
    Escapes politeEnv (.set [.sym "v" false]) (dictOf [("v", .seq .list [.set []])]) ∧
    Escapes politeEnv (.getAttr (.sym "s" false) "to_flt" false) (dictOf [("s", .str "info")]) ∧
    Escapes politeEnv (.call (.sym "f" false) []) (dictOf [("f", .userFn 1)]) ∧
    Escapes politeEnv (.bin (.shift .lsh) (.floatLit "1") (.sym "n" false)) (dictOf [("n", .int 20000)]) ∧
    Escapes politeEnv (.bin (.fuzzy false false) (.sym "s" false) (.sym "s" false))
      (dictOf [("s", .str "x{4294967296}")]) :=
  ⟨politeEnv_polite, escapes_of (by decide +kernel), escapes_of (by decide +kernel), escapes_of (by decide +kernel),
    escapes_of (by decide +kernel), escapes_of (by decide +kernel), escapes_of (by decide +kernel),
    escapes_of (by decide +kernel), escapes_of (by decide +kernel), escapes_of (by decide +kernel),
    escapes_of (by decide +kernel)⟩

/-- the hypotheses of `escape_origin_partial` are met, and its conclusion names the addition -/
example : ∃ e, (∃ s s', construct politeEnv politeEnv.decCtx (.bin .add (.lit (.str "x")) (.sym "n" false)) s = (.ok e, s')) ∧
    Fault politeEnv politeEnv.decCtx (dictOf [("n", .int 1)]) e [] := by
  obtain ⟨-, ⟨e, s, k, s', hc, hr⟩, -⟩ := escape_false
  exact ⟨e, ⟨_, _, hc⟩, escape_origin_partial _ _ _ (by simp [Raw.Plain, Value.isToken]) _ _ _ hc _ _ _ _ hr⟩

end RE
