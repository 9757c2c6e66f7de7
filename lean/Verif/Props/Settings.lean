import Verif.Props.WellFormed
import Verif.Props.Gradual

/-!
# What the settings of a context can matter for (C83)

A context has, besides resolvers, types and default value, a default timezone, a decimal context and flags for regular
expressions.  `Exchange` says which of them are exchanged for those of another context (and the thread's decimal context
for another one).  `Value.Free`, `Raw.Free`: nothing that depends on an exchanged setting.
-/

set_option linter.unusedSimpArgs false
set_option linter.unusedVariables false

namespace RE

/-- which settings are exchanged: default timezone, decimal contexts, regular expression flags -/
structure Exchange where
  timezone : Bool
  decimals : Bool
  regexes : Bool

/-- the builtin functions that use an exchanged setting -/
def Exchange.function (X : Exchange) : Builtin → Bool
  | .parseDatetime => X.timezone
  | .abs | .sum => X.decimals
  | _ => false

/-- the `$` names whose values use an exchanged setting -/
def Exchange.name (X : Exchange) (n : String) : Bool :=
  if n ∈ ["now", "today", "parse_datetime"] then X.timezone else if n ∈ ["abs", "sum"] then X.decimals else false

/-- the binary operators that use an exchanged setting -/
def Exchange.op (X : Exchange) : BinOp → Bool
  | .add | .sub | .arith _ => X.decimals
  | .fuzzy _ _ => X.regexes
  | _ => false

mutual
/-- no datetimes without a timezone (and no dates, which become such) when the timezone is exchanged, and no builtin
function that uses an exchanged setting -/
def Value.Free (X : Exchange) : Value → Prop
  | .datetime _ .none => X.timezone = false
  | .date _ => X.timezone = false
  | .seq _ xs => Value.AllFree X xs
  | .set xs => Value.AllFree X xs
  | .map _ kvs => Value.PairsFree X kvs
  | .builtinFn f => X.function f = false
  | _ => True
def Value.AllFree (X : Exchange) : List Value → Prop
  | [] => True
  | x :: xs => x.Free X ∧ Value.AllFree X xs
def Value.PairsFree (X : Exchange) : List (Value × Value) → Prop
  | [] => True
  | (k, v) :: xs => k.Free X ∧ v.Free X ∧ Value.PairsFree X xs
end

theorem allFree_iff {X : Exchange} : ∀ {xs : List Value}, Value.AllFree X xs ↔ ∀ x ∈ xs, x.Free X
  | [] => by simp [Value.AllFree]
  | x :: xs => by simp [Value.AllFree, allFree_iff (xs := xs)]

theorem pairsFree_iff {X : Exchange} : ∀ {xs : List (Value × Value)}, Value.PairsFree X xs ↔
    ∀ p ∈ xs, p.1.Free X ∧ p.2.Free X
  | [] => by simp [Value.PairsFree]
  | (k, v) :: xs => by simp [Value.PairsFree, pairsFree_iff (xs := xs), and_assoc]

mutual
/-- a rule without operators, names and literals that use an exchanged setting: with the decimal contexts no `+ - * / // %
**`, no minus sign, no `$abs`, `$sum`; with the flags none of the four regular expression operators; with the timezone no
`$now`, `$today`, `$parse_datetime` and no datetime literal without a timezone -/
def Raw.Free (X : Exchange) (env : Env) : Raw → Prop
  | .lit _ | .floatLit _ | .timedeltaLit _ => True
  | .datetimeLit s => X.timezone = true → ∀ us, env.isoparse s ≠ some (us, none)
  | .array xs => Raw.AllFree X env xs
  | .set xs => Raw.AllFree X env xs
  | .mapping kvs => Raw.PairsFree X env kvs
  | .bin op l r => X.op op = false ∧ l.Free X env ∧ r.Free X env
  | .comp r _ it c => r.Free X env ∧ it.Free X env ∧ c.Free X env
  | .contains c m => c.Free X env ∧ m.Free X env
  | .getAttr o _ _ => o.Free X env
  | .getItem c i _ => c.Free X env ∧ i.Free X env
  | .getSlice c a b _ => c.Free X env ∧ a.Free X env ∧ b.Free X env
  | .sym n b => b = true → X.name n = false
  | .call f args => f.Free X env ∧ Raw.AllFree X env args
  | .tern c t f => c.Free X env ∧ t.Free X env ∧ f.Free X env
  | .not e => e.Free X env
  | .neg e => X.decimals = false ∧ e.Free X env
def Raw.AllFree (X : Exchange) (env : Env) : List Raw → Prop
  | [] => True
  | x :: xs => x.Free X env ∧ Raw.AllFree X env xs
def Raw.PairsFree (X : Exchange) (env : Env) : List (Raw × Raw) → Prop
  | [] => True
  | (k, v) :: xs => k.Free X env ∧ v.Free X env ∧ Raw.PairsFree X env xs
end

mutual
/-- the same for what a rule is built into -/
def Expr.Free (X : Exchange) : Expr → Prop
  | .lit v _ => v.Free X
  | .array xs => Expr.AllFree X xs
  | .set xs => Expr.AllFree X xs
  | .mapping kvs => Expr.PairsFree X kvs
  | .bin op l r => X.op op = false ∧ l.Free X ∧ r.Free X
  | .comp r _ it c => r.Free X ∧ it.Free X ∧ c.Free X
  | .contains c m => c.Free X ∧ m.Free X
  | .getAttr o _ _ => o.Free X
  | .getItem c i _ => c.Free X ∧ i.Free X
  | .getSlice c a b _ => c.Free X ∧ a.Free X ∧ b.Free X
  | .sym n _ b => b = true → X.name n = false
  | .call f args => f.Free X ∧ Expr.AllFree X args
  | .tern c t f => c.Free X ∧ t.Free X ∧ f.Free X
  | .not e => e.Free X
  | .neg e => X.decimals = false ∧ e.Free X
def Expr.AllFree (X : Exchange) : List Expr → Prop
  | [] => True
  | x :: xs => x.Free X ∧ Expr.AllFree X xs
def Expr.PairsFree (X : Exchange) : List (Expr × Expr) → Prop
  | [] => True
  | (k, v) :: xs => k.Free X ∧ v.Free X ∧ Expr.PairsFree X xs
end

/-- the context with the exchanged settings taken from another one -/
def Env.exchange (X : Exchange) (env other : Env) : Env :=
  { env with
    defaultTz := if X.timezone then other.defaultTz else env.defaultTz
    decCtx := if X.decimals then other.decCtx else env.decCtx
    reValid := if X.regexes then other.reValid else env.reValid
    reLimit := if X.regexes then other.reLimit else env.reLimit
    reRun := if X.regexes then other.reRun else env.reRun }

/-- What resolver, functions, default value and random numbers give does not depend on the exchanged settings: no datetime
without a timezone if that is exchanged, no builtin functions that use exchanged settings. -/
structure Env.FreeData (X : Exchange) (env : Env) : Prop where
  resolver : ∀ (o : Value) (n : String) (v : Value), o.Free X → env.resolver o n = .ok v → v.Free X
  functions : ∀ (i : Nat) (args : List Value) (v : Value), (∀ a ∈ args, a.Free X) → env.callUser i args = .ok v → v.Free X
  random : ∀ b, (env.random b).Free X
  default : ∀ v, env.defaultValue = some v → v.Free X

/-- variables and groups of a thread -/
structure St.Free (X : Exchange) (s : St) : Prop where
  scopes : ∀ a ∈ s.scopes, a.value.Free X
  groups : s.groups.Free X

section
variable {X : Exchange}

theorem tuple_free {k : SeqKind} {xs : List Value} (h : ∀ x ∈ xs, x.Free X) : (Value.seq k xs).Free X :=
  allFree_iff.2 h

mutual
theorem coerce_free {off : TzDb} : ∀ v : Value, v.Free X → (coerce off v).Free X
  | .seq k xs, h => by
    simp only [coerce]
    exact tuple_free (allFree_iff.1 (coerces_free xs h))
  | .set xs, h => by simpa only [coerce] using h
  | .map k kvs, h => by
    simp only [coerce]
    refine pairsFree_iff.2 fun p hp => ?_
    have hp' := coercep_free (off := off) kvs h
    unfold mapOfList at hp
    have : ∀ (l acc : List (Value × Value)), (∀ p ∈ l, p.1.Free X ∧ p.2.Free X) → (∀ p ∈ acc, p.1.Free X ∧ p.2.Free X) →
        ∀ p ∈ l.foldl (fun acc p => mapInsert off acc p.1 p.2) acc, p.1.Free X ∧ p.2.Free X := by
      intro l
      induction l with
      | nil => intro acc _ ha; exact ha
      | cons q l ih =>
        intro acc hl ha
        refine ih _ (fun p hp => hl p (by simp [hp])) fun p hp => ?_
        obtain ⟨h1, h2⟩ := mapInsert_mem off acc q.1 q.2 p hp
        have hq := hl q (by simp)
        constructor
        · rcases h1 with h1 | ⟨r, hr, h1⟩
          · exact h1 ▸ hq.1
          · exact h1 ▸ (ha r hr).1
        · rcases h2 with h2 | ⟨r, hr, h2⟩
          · exact h2 ▸ hq.2
          · exact h2 ▸ (ha r hr).2
    exact this _ [] hp' (by simp) p hp
  | .date d, h => by simpa [coerce, Value.Free] using h
  | .none, _ | .bool _, _ | .int _, _ | .float _, _ | .dec _, _ | .str _, _ | .bytes _, _
  | .timedelta _, _ | .userFn _, _ | .method .., _
  | .obj _, _ | .undef, _ => by simp [coerce, Value.Free]
  | .datetime _ _, h | .builtinFn _, h => by simpa only [coerce] using h
theorem coerces_free {off : TzDb} : ∀ xs : List Value, Value.AllFree X xs → Value.AllFree X (coerceList off xs)
  | [], _ => trivial
  | x :: xs, h => ⟨coerce_free x h.1, coerces_free xs h.2⟩
theorem coercep_free {off : TzDb} : ∀ kvs : List (Value × Value), Value.PairsFree X kvs →
    ∀ p ∈ coercePairs off kvs, p.1.Free X ∧ p.2.Free X
  | [], _ => by simp [coercePairs]
  | (k, v) :: kvs, h => by
    intro p hp
    simp only [coercePairs, List.mem_cons] at hp
    rcases hp with rfl | hp
    · exact ⟨coerce_free k h.1, coerce_free v h.2.1⟩
    · exact coercep_free kvs h.2.2 p hp
end

theorem localise_free {env : Env} {v : Value} (h : v.Free X) : (localise env v).Free X := by
  unfold localise
  split
  · simp [Value.Free]
  · exact h

theorem localise_same {env other : Env} {v : Value} (h : v.Free X) : localise (env.exchange X other) v = localise env v := by
  unfold localise
  split
  · rename_i us
    simp only [Value.Free] at h
    simp [Env.exchange, h]
  · rfl

theorem newValue_free {env : Env} {v : Value} (h : v.Free X) : (newValue env v).Free X := localise_free (coerce_free v h)

theorem newValue_same {env other : Env} {v : Value} (h : v.Free X) : newValue (env.exchange X other) v = newValue env v :=
  localise_same (coerce_free v h)

theorem members_free {v : Value} {xs : List Value} (hv : v.Free X) (h : v.members = .ok xs) : ∀ x ∈ xs, x.Free X := by
  cases v <;> simp only [Value.members, Except.ok.injEq, reduceCtorEq] at h <;> subst h
  case str s => intro x hx; obtain ⟨c, -, rfl⟩ := List.mem_map.1 hx; simp [Value.Free]
  case bytes b => intro x hx; obtain ⟨c, -, rfl⟩ := List.mem_map.1 hx; simp [Value.Free]
  case seq k ys => exact allFree_iff.1 hv
  case set ys => exact allFree_iff.1 hv
  case map k kvs =>
    intro x hx
    obtain ⟨p, hp, rfl⟩ := List.mem_map.1 hx
    exact (pairsFree_iff.1 hv p hp).1

/-! ### Operators -/

theorem numOp_free {env : Env} {dc : DecCtx} {op : ArithOp} {a b v : Value} (h : numOp env dc op a b = .ok v) : v.Free X := by
  have hd : ∀ {x : Except DecErr Dec} {v : Value}, (x.mapError Err.ofDec).map Value.dec = .ok v → v.Free X := by
    intro x v h; cases x <;> cases h; trivial
  have hr : ∀ {x : Except Err RawNum} {v : Value}, x.map RawNum.toValue = .ok v → v.Free X := by
    intro x v h
    rcases x with e | r <;> cases h
    cases r <;> trivial
  unfold numOp at h
  repeat' split at h
  all_goals first
    | exact hd h
    | exact hr h
    | (cases h; trivial)
    | cases h

theorem mkDatetime_free {us x : Int} {tz : Option Nat} {v : Value} (ha : (Value.datetime x tz).Free X)
    (h : mkDatetime us tz = .ok v) : v.Free X := by
  unfold mkDatetime at h; split at h <;> cases h
  cases tz <;> exact ha
theorem mkTimedelta_free {us : Int} {v : Value} (h : mkTimedelta us = .ok v) : v.Free X := by
  unfold mkTimedelta at h; split at h <;> cases h; trivial

theorem opAdd_free {env : Env} {dc : DecCtx} {a b v : Value} (ha : a.Free X) (hb : b.Free X)
    (h : opAdd env dc a b = .ok v) : v.Free X := by
  simp only [opAdd, except_bind_ok] at h
  obtain ⟨_, -, h⟩ := h
  unfold pyAdd at h
  split at h
  · exact mkDatetime_free ha h
  · exact mkDatetime_free hb h
  · exact mkTimedelta_free h
  · cases h; trivial
  · cases h; trivial
  · exact numOp_free h

theorem opSub_free {env : Env} {dc : DecCtx} {a b v : Value} (ha : a.Free X)
    (h : opSub env dc a b = .ok v) : v.Free X := by
  simp only [opSub, except_bind_ok] at h
  obtain ⟨_, -, h⟩ := h
  unfold pySub at h
  split at h
  · split at h
    · exact mkTimedelta_free h
    · split at h <;> exact mkTimedelta_free h
    · cases h
  · exact mkDatetime_free ha h
  · exact mkTimedelta_free h
  · exact numOp_free h

theorem opArith_free {env : Env} {dc : DecCtx} {op : ArithOp} {a b v : Value} (h : opArith env dc op a b = .ok v) :
    v.Free X := by
  unfold opArith at h
  split at h
  · rename_i w hw
    cases h
    exact numOp_free hw
  · split at h <;> cases h

theorem opNeg_free {dc : DecCtx} {a v : Value} (h : opNeg dc a = .ok v) : v.Free X := by
  cases a <;> simp [opNeg, isNumeric, pyNeg] at h
  · cases h; trivial
  · cases h; trivial
  · rename_i d
    rcases hd : decNeg dc d with e | d <;> rw [hd] at h <;> cases h
    trivial
  · exact mkTimedelta_free h

theorem opBitSet_free {off : TzDb} {op : BitOp} {xs : List Value} {b v : Value}
    (hx : (Value.set xs).Free X) (hb : b.Free X) (h : opBitSet off op xs b = .ok v) : v.Free X := by
  simp only [opBitSet, except_bind_ok] at h
  obtain ⟨bt, -, h⟩ := h
  split at h
  · cases b <;> simp only [reduceCtorEq] at h
    rename_i ys
    simp only [except_bind_ok, Except.ok.injEq] at h
    obtain ⟨zs, hz, rfl⟩ := h
    exact allFree_iff.2 (bitSet_members (allFree_iff.1 hx) (allFree_iff.1 hb) hz)
  · cases h

theorem item_free {c v : Value} (hc : c.Free X) (h : ItemOf c v) : v.Free X := by
  cases h with
  | str c => simp [Value.Free]
  | bytes x => simp [Value.Free]
  | seq h => exact allFree_iff.1 hc _ h
  | map h => exact (pairsFree_iff.1 hc _ h).2

theorem slice_free {c v : Value} {a b : Option Int} (hc : c.Free X) (h : pyGetSlice c a b = .ok v) : v.Free X := by
  cases c <;> simp only [pyGetSlice, Except.ok.injEq, reduceCtorEq] at h <;> subst h
  · simp [Value.Free]
  · simp [Value.Free]
  · exact tuple_free fun x hx => allFree_iff.1 hc x (pySlice_mem hx)

theorem attrValue_free {env : Env} {k : AttrKind} {name : String} {o w : Value} (ho : o.Free X)
    (h : attrValue env k name o = .ok w) : w.Free X := by
  unfold attrValue at h
  repeat' split at h
  all_goals first
    | (cases h; done)
    | (cases h; exact ho)
    | (cases h; simp [Value.Free]; done)
    | (cases shortInt_same h; simp [Value.Free]; done)
    | (cases h; rename_i us tz; cases tz <;> exact ho)
    | (simp only [except_bind_ok, Except.ok.injEq] at h
       obtain ⟨_, _, rfl⟩ := h
       first | exact ho | exact tuple_free (members_free ho ‹_›))
    | (simp only [except_bind_ok, Except.ok.injEq] at h
       obtain ⟨xs, hx, ys, hy, rfl⟩ := h
       exact allFree_iff.2 fun y hm => members_free ho hx y (setOfList_mem hy y hm))
    | (simp only [except_bind_ok] at h
       obtain ⟨r, hr, h⟩ := h
       cases shortInt_same h
       rcases stringToFlt_num hr with ⟨d, rfl⟩ | ⟨d, rfl⟩ | ⟨d, rfl⟩ <;> simp [Value.Free])
    | (simp only [except_bind_ok] at h
       obtain ⟨r, hr, _, -, h⟩ := h
       cases shortInt_same h
       rcases stringToFlt_num hr with ⟨d, rfl⟩ | ⟨d, rfl⟩ | ⟨d, rfl⟩ <;> simp [Value.Free])
    | (cases h
       refine tuple_free fun x hx => ?_
       obtain ⟨p, hp, rfl⟩ := List.mem_map.1 hx
       first
         | exact (pairsFree_iff.1 ho p hp).1
         | exact (pairsFree_iff.1 ho p hp).2)

theorem coerceVerify_free {off : TzDb} {v w : Value} (hv : v.Free X) (h : coerceVerify off v = .ok w) : w.Free X := by
  simp only [coerceVerify, except_bind_ok, Except.ok.injEq] at h
  obtain ⟨_, -, rfl⟩ := h
  exact coerce_free v hv

theorem resolveAttr_free {env : Env} {name : String} {o v : Value} (ho : o.Free X)
    (h : resolveAttr env o name = .ok v) : v.Free X := by
  unfold resolveAttr at h
  split at h
  · cases h
  · cases h
  · split at h
    · cases h
    · split at h
      · cases h
      · simp only [except_bind_ok] at h
        obtain ⟨w, hw, u, hu, _, -, h⟩ := h
        split at h <;> cases h
        exact coerceVerify_free (attrValue_free ho hw) hu

theorem resolveAttr_same {env other : Env} (o : Value) (name : String) :
    resolveAttr (env.exchange X other) o name = resolveAttr env o name := rfl

/-! ### Calls -/

theorem callMethod_free {env : Env} {m : Method} {self v : Value} {args : List Value}
    (h : callMethod env m self args = .ok v) : v.Free X := by
  unfold callMethod at h
  split at h
  · simp only at h
    split at h
    · cases h; trivial
    · split at h
      · cases h; trivial
      · split at h <;> cases h; trivial
  · simp only at h
    split at h
    · split at h <;> cases h; trivial
    · split at h
      · split at h <;> cases h; trivial
      · split at h <;> cases h; trivial
  · simp only [except_bind_ok, Except.ok.injEq] at h
    obtain ⟨_, _, _, _, rfl⟩ := h
    trivial
  · simp only [except_bind_ok, Except.ok.injEq] at h
    obtain ⟨_, _, _, _, rfl⟩ := h
    trivial
  · cases h

theorem pySum_free {env : Env} {dc : DecCtx} {xs : List Value} {v : Value} (h : pySum env dc xs = .ok v) : v.Free X :=
  foldlM_inv (P := fun v => v.Free X) (fun b a b' _ h => numOp_free h) xs (by trivial) h

theorem pyRange_free {a b s : Int} : (Value.seq .list (pyRange a b s)).Free X := by
  refine tuple_free fun x hx => ?_
  unfold pyRange at hx
  obtain ⟨i, -, rfl⟩ := List.mem_map.1 hx
  simp [Value.Free]

theorem range_free {args : List Value} {v : Value} (h : builtinRange args = .ok v) : v.Free X := by
  unfold builtinRange at h
  simp only at h
  split at h
  all_goals first
    | (cases h; done)
    | (simp only [except_bind_ok] at h
       obtain ⟨a, -, h⟩ := h
       cases h
       exact pyRange_free)
    | (simp only [except_bind_ok] at h
       obtain ⟨a, -, h⟩ := h
       repeat' split at h
       all_goals first
         | (cases h; exact pyRange_free)
         | (simp only [except_bind_ok, Except.ok.injEq] at h
            obtain ⟨b, -, rfl⟩ := h
            exact pyRange_free)
         | (simp only [except_bind_ok] at h
            obtain ⟨b, -, h⟩ := h
            obtain ⟨c, -, h⟩ := h
            cases h; exact pyRange_free))

theorem split_free {args : List Value} {v : Value} (h : builtinSplit args = .ok v) : v.Free X := by
  have hs : ∀ {x : Except Err (List (List Char))} {v : Value},
      (do let ps ← x; .ok (.tuple (ps.map fun p => .str (String.ofList p))) : Except Err Value) = .ok v → v.Free X := by
    intro x v h
    simp only [except_bind_ok, Except.ok.injEq] at h
    obtain ⟨ps, -, rfl⟩ := h
    refine tuple_free fun x hx => ?_
    obtain ⟨p, -, rfl⟩ := List.mem_map.1 hx
    simp [Value.Free]
  unfold builtinSplit at h
  simp only at h
  split at h
  all_goals first
    | (cases h; done)
    | (simp only [except_bind_ok] at h
       obtain ⟨k, -, h⟩ := h
       split at h
       · exact hs (by simpa only [except_bind_ok] using h)
       · cases h)

theorem callBuiltin_free {env : Env} (hd : env.FreeData X) {dc : DecCtx} {f : Builtin} {args : List Value} {v : Value}
    (ha : ∀ a ∈ args, a.Free X) (h : callBuiltin env dc f args = .ok v) : v.Free X := by
  have hdec : ∀ {x : Except DecErr Dec} {v : Value}, (x.mapError Err.ofDec).map Value.dec = .ok v → v.Free X := by
    intro x v h; cases x <;> cases h; trivial
  unfold callBuiltin at h
  split at h
  · exact hdec h
  · cases h; simp [Value.Free]
  · cases h; simp [Value.Free]
  · exact mkTimedelta_free h
  · simp only [except_bind_ok, Except.ok.injEq] at h
    obtain ⟨_, -, rfl⟩ := h
    simp [Value.Free]
  · simp only [except_bind_ok, Except.ok.injEq] at h
    obtain ⟨_, -, rfl⟩ := h
    simp [Value.Free]
  · simp only [except_bind_ok] at h
    obtain ⟨_, -, h⟩ := h
    exact pySum_free h
  · simp only [except_bind_ok] at h
    obtain ⟨xs, hx, h⟩ := h
    exact members_free (ha _ (by simp)) hx v (pyExtreme_mem h)
  · simp only [except_bind_ok] at h
    obtain ⟨xs, hx, h⟩ := h
    exact members_free (ha _ (by simp)) hx v (pyExtreme_mem h)
  · unfold parseDatetime at h
    split at h <;> cases h <;> simp [Value.Free]
  · rename_i s
    rcases hp : parseFloat s.toList with e | d <;> rw [hp] at h <;> cases h
    simp [Value.Free]
  · rename_i s
    rcases hp : parseTimedelta s.toList with e | d <;> rw [hp] at h <;> cases h
    simp [Value.Free]
  · cases h; exact hd.random _
  · split at h
    · simp only [except_bind_ok] at h
      obtain ⟨q, -, h⟩ := h
      split at h <;> cases h
      exact hd.random _
    · cases h; exact hd.random _
  · exact range_free h
  · exact split_free h
  · cases h

theorem callBuiltin_same {env other : Env} {dc dc' : DecCtx} (hdc : X.decimals = false → dc' = dc) {f : Builtin}
    (hf : X.function f = false) (args : List Value) :
    callBuiltin (env.exchange X other) dc' f args = callBuiltin env dc f args := by
  cases f <;> simp only [Exchange.function] at hf <;> try rw [hdc hf]
  all_goals first
    | rfl
    | skip
  all_goals (unfold callBuiltin; split <;> first | rfl | skip)
  all_goals simp_all [parseDatetime, Env.exchange, Env.isoError]

theorem callBasic_free {env : Env} (hd : env.FreeData X) {dc : DecCtx} {f : Value} {args : List Value} {v : Value}
    (ha : ∀ a ∈ args, a.Free X) (h : callBasic env dc f args = .ok v) : v.Free X := by
  unfold callBasic at h
  split at h
  · exact callBuiltin_free hd ha h
  · exact hd.functions _ _ _ ha h
  · exact callMethod_free h
  · cases h

theorem callBasic_same {env other : Env} {dc dc' : DecCtx} (hdc : X.decimals = false → dc' = dc) {f : Value}
    (hf : f.Free X) (args : List Value) :
    callBasic (env.exchange X other) dc' f args = callBasic env dc f args := by
  unfold callBasic
  split
  · exact callBuiltin_same hdc hf args
  · rfl
  · rfl
  · rfl


/-! ### Computations -/

/-- In a thread whose variables and groups are free of the exchanged settings, both computations do the same, return
something that satisfies `P`, and leave the thread like that. -/
structure Akin (X : Exchange) {α : Type} (P : α → Prop) (m' m : M α) : Prop where
  out : ∀ s, s.Free X → m' s = m s ∧ (∀ v, (m s).1 = .ok v → P v) ∧ (m s).2.Free X

section
variable {α β : Type} {P : α → Prop} {Q : β → Prop}

theorem Akin.pure {v : α} (h : P v) : Akin X P (Pure.pure v) (Pure.pure v) :=
  ⟨fun s hs => ⟨rfl, fun w hw => (by cases hw; exact h), hs⟩⟩
theorem Akin.throw {e : Err} : Akin X P (M.throw e : M α) (M.throw e) :=
  ⟨fun s hs => ⟨rfl, fun w hw => (by cases hw), hs⟩⟩
theorem Akin.lift {x' x : Except Err α} (he : x' = x) (h : ∀ v, x = .ok v → P v) : Akin X P (M.lift x') (M.lift x) :=
  ⟨fun s hs => ⟨by rw [he], h, hs⟩⟩
theorem Akin.skip {x : Except Err α} : Akin X (fun _ => True) (M.lift x) (M.lift x) := .lift rfl fun _ _ => trivial
theorem Akin.bind {m' m : M α} {f' f : α → M β} (hm : Akin X P m' m) (hf : ∀ a, P a → Akin X Q (f' a) (f a)) :
    Akin X Q (m' >>= f') (m >>= f) := by
  refine ⟨fun s hs => ?_⟩
  obtain ⟨h0, h1, h2⟩ := hm.out s hs
  rw [M.bind_apply, M.bind_apply, h0]
  rcases hx : m s with ⟨e | a, s1⟩ <;> rw [hx] at h1 h2
  · exact ⟨rfl, fun v hv => (by cases hv), h2⟩
  · exact (hf a (h1 a rfl)).out s1 h2
theorem Akin.ite {c : Prop} [Decidable c] {x' x y' y : M α} (hx : Akin X P x' x) (hy : Akin X P y' y) :
    Akin X P (if c then x' else y') (if c then x else y) := by split <;> assumption
theorem Akin.mono {P' : α → Prop} {m' m : M α} (h : Akin X P m' m) (hp : ∀ v, P v → P' v) : Akin X P' m' m :=
  ⟨fun s hs => ⟨(h.out s hs).1, fun v hv => hp v ((h.out s hs).2.1 v hv), (h.out s hs).2.2⟩⟩
theorem Akin.withScope {m' m : M α} {a : Assignment} (ha : a.value.Free X) (h : Akin X P m' m) :
    Akin X P (M.withScope a m') (M.withScope a m) := by
  refine ⟨fun s hs => ?_⟩
  have hs' : St.Free X { s with scopes := s.scopes ++ [a] } := by
    refine ⟨fun b hb => ?_, hs.groups⟩
    rcases List.mem_append.1 hb with hb | hb
    · exact hs.scopes b hb
    · rw [List.mem_singleton] at hb; subst hb; exact ha
  obtain ⟨h0, h1, h2⟩ := h.out _ hs'
  refine ⟨?_, h1, ⟨fun b hb => h2.scopes b (List.dropLast_subset _ hb), h2.groups⟩⟩
  simp only [M.withScope, h0]
theorem Akin.catch {m' m : M α} {f' f : Err → M α} (hm : Akin X P m' m) (hf : ∀ e, Akin X P (f' e) (f e)) :
    Akin X P (M.catchErr m' f') (M.catchErr m f) := by
  refine ⟨fun s hs => ?_⟩
  obtain ⟨h0, h1, h2⟩ := hm.out s hs
  unfold M.catchErr
  rw [h0]
  rcases hx : m s with ⟨e | a, s1⟩ <;> rw [hx] at h1 h2
  · exact (hf e).out s1 h2
  · exact ⟨rfl, fun v hv => h1 v hv, h2⟩
end

/-- the same value, which is free of the exchanged settings -/
abbrev Akin.Val (X : Exchange) (m' m : M Value) : Prop := Akin X (Value.Free X) m' m

theorem akin_bool (b : Bool) : Akin.Val X (Pure.pure (Value.bool b)) (Pure.pure (Value.bool b)) := .pure trivial
theorem akin_none : Akin.Val X (Pure.pure Value.none) (Pure.pure Value.none) := .pure trivial

theorem opFuzzy_akin {env other : Env} (hx : X.regexes = false) (a b : Bool) (l r : Value) :
    Akin.Val X (opFuzzy (env.exchange X other) a b l r) (opFuzzy env a b l r) := by
  have he : opFuzzy (env.exchange X other) a b l r = opFuzzy env a b l r := by
    simp [opFuzzy, Env.exchange, hx, Env.reError]
  rw [he]
  unfold opFuzzy
  repeat' split
  all_goals first
    | exact Akin.throw
    | exact akin_bool _
    | skip
  refine Akin.bind (P := fun _ => True) ?_ (fun _ _ => akin_bool _)
  refine ⟨fun s hs => ⟨rfl, fun _ _ => trivial, ⟨hs.scopes, ?_⟩⟩⟩
  refine tuple_free fun x hx => ?_
  obtain ⟨g, -, rfl⟩ := List.mem_map.1 hx
  cases g <;> simp [Value.Free]

theorem bit_akin {env other : Env} {op : BitOp} {l r l' r' : M Value} (hl : Akin.Val X l' l) (hr : Akin.Val X r' r) :
    Akin.Val X (do
      let a ← l'
      let t ← M.lift (fromValue a)
      if DataType.eq t .float then do
        M.lift (assertNatural a)
        let b ← r'
        M.lift (opBitNat (env.exchange X other) op a b)
      else
        match a with
        | .set xs => do
          let b ← r'
          M.lift (opBitSet (env.exchange X other).utcoffset op xs b)
        | _ => M.throw .mismatch : M Value)
     (do
      let a ← l
      let t ← M.lift (fromValue a)
      if DataType.eq t .float then do
        M.lift (assertNatural a)
        let b ← r
        M.lift (opBitNat env op a b)
      else
        match a with
        | .set xs => do
          let b ← r
          M.lift (opBitSet env.utcoffset op xs b)
        | _ => M.throw .mismatch : M Value) := by
  refine hl.bind fun a ha => Akin.skip.bind fun t _ => Akin.ite ?_ ?_
  · refine Akin.skip.bind fun _ _ => hr.bind fun b hb => Akin.lift rfl fun v h => ?_
    obtain ⟨n, rfl⟩ := opBitNat_ok h
    trivial
  · split
    · exact hr.bind fun b hb => Akin.lift rfl fun v h => opBitSet_free ha hb h
    · exact Akin.throw

theorem evalBin_akin {env other : Env} {dc dc' : DecCtx} (hdc : X.decimals = false → dc' = dc) {op : BinOp}
    (ho : X.op op = false) {l r l' r' : M Value} (hl : Akin.Val X l' l) (hr : Akin.Val X r' r) :
    Akin.Val X (evalBin (env.exchange X other) dc' op l' r') (evalBin env dc op l r) := by
  cases op with
  | add => cases hdc ho; exact hl.bind fun a ha => hr.bind fun b hb => Akin.lift rfl fun v h => opAdd_free ha hb h
  | sub => cases hdc ho; exact hl.bind fun a ha => hr.bind fun b hb => Akin.lift rfl fun v h => opSub_free ha h
  | arith op =>
    cases hdc ho
    exact hl.bind fun a ha => Akin.skip.bind fun _ _ => hr.bind fun b hb => Akin.skip.bind fun _ _ =>
      Akin.lift rfl fun v h => opArith_free h
  | bit op => exact bit_akin hl hr
  | shift op => exact bit_akin hl hr
  | and => exact hl.bind fun a _ => Akin.ite (hr.bind fun b _ => akin_bool _) (akin_bool _)
  | or => exact hl.bind fun a _ => Akin.ite (akin_bool _) (hr.bind fun b _ => akin_bool _)
  | eq => exact hl.bind fun a _ => hr.bind fun b _ => akin_bool _
  | ne => exact hl.bind fun a _ => hr.bind fun b _ => akin_bool _
  | cmp op => exact hl.bind fun a _ => hr.bind fun b _ => Akin.skip.bind fun _ _ => akin_bool _
  | fuzzy x y =>
    refine hl.bind fun a _ => ?_
    split
    · exact hr.bind fun b _ => opFuzzy_akin ho ..
    · exact hr.bind fun b _ => opFuzzy_akin ho ..
    · exact Akin.throw

theorem seqM_akin : ∀ {ms' ms : List (M Value)}, List.Forall₂ (Akin.Val X) ms' ms →
    Akin X (fun vs => ∀ v ∈ vs, v.Free X) (seqM ms') (seqM ms)
  | _, _, .nil => Akin.pure (by simp)
  | _, _, .cons h hs => by
    refine h.bind fun v hv => (seqM_akin hs).bind fun vs hvs => Akin.pure ?_
    intro w hw
    rcases List.mem_cons.1 hw with rfl | hw
    · exact hv
    · exact hvs w hw

theorem setM_akin {off : TzDb} : ∀ {ms' ms : List (M Value)} {acc : List Value}, (∀ v ∈ acc, v.Free X) →
    List.Forall₂ (Akin.Val X) ms' ms → Akin X (fun vs => ∀ v ∈ vs, v.Free X) (setM off acc ms') (setM off acc ms)
  | _, _, acc, ha, .nil => Akin.pure ha
  | _, _, acc, ha, .cons h hs => by
    unfold setM
    refine h.bind fun v hv => Akin.ite (setM_akin (fun w hw => ?_) hs) Akin.throw
    rcases setAdd_mem' hw with hw | rfl
    · exact ha w hw
    · exact hv

/-- the same keys with agreeing computations -/
def AkinVals (X : Exchange) (ps' ps : List (Value × M Value)) : Prop :=
  List.Forall₂ (fun p' p => p'.1 = p.1 ∧ p.1.Free X ∧ Akin.Val X p'.2 p.2) ps' ps

theorem mapInsert_akin (off : TzDb) {ps' ps : List (Value × M Value)} (h : AkinVals X ps' ps) {k : Value}
    (hk : k.Free X) {v' v : M Value} (hv : Akin.Val X v' v) :
    AkinVals X (mapInsert off ps' k v') (mapInsert off ps k v) := by
  induction h with
  | nil => exact .cons ⟨rfl, hk, hv⟩ .nil
  | @cons p' p ps' ps hp h ih =>
    obtain ⟨k1, v1⟩ := p'
    obtain ⟨k2, v2⟩ := p
    obtain ⟨he, hk2, hv2⟩ := hp
    simp only at he hv2 hk2
    subst he
    simp only [mapInsert]
    split
    · exact .cons ⟨rfl, hk2, hv⟩ h
    · exact .cons ⟨rfl, hk2, hv2⟩ ih

theorem mapValsM_akin {ps' ps : List (Value × M Value)} (h : AkinVals X ps' ps) :
    Akin X (fun kvs => ∀ p ∈ kvs, p.1.Free X ∧ p.2.Free X) (mapValsM ps') (mapValsM ps) := by
  induction h with
  | nil => exact Akin.pure (by simp)
  | @cons p' p ps' ps hp h ih =>
    obtain ⟨k1, v1⟩ := p'
    obtain ⟨k2, v2⟩ := p
    obtain ⟨he, hk2, hv2⟩ := hp
    simp only at he hv2 hk2
    subst he
    refine hv2.bind fun v hv => ih.bind fun vs hvs => Akin.pure ?_
    intro p hp
    rcases List.mem_cons.1 hp with rfl | hp
    · exact ⟨hk2, hv⟩
    · exact hvs p hp

theorem mapM_akin (off : TzDb) {ps' ps : List (M Value × M Value)}
    (h : List.Forall₂ (fun p' p => Akin.Val X p'.1 p.1 ∧ Akin.Val X p'.2 p.2) ps' ps)
    {acc' acc : List (Value × M Value)} (ha : AkinVals X acc' acc) :
    Akin X (fun kvs => ∀ p ∈ kvs, p.1.Free X ∧ p.2.Free X) (mapKeysM off acc' ps' >>= mapValsM)
      (mapKeysM off acc ps >>= mapValsM) := by
  have e0 : ∀ {α β : Type} (e : Err) (f : α → M β), (M.throw e >>= f) = M.throw e := by intros; rfl
  induction h generalizing acc' acc with
  | nil =>
    have e : ∀ a : List (Value × M Value), (mapKeysM off a [] >>= mapValsM) = mapValsM a := by
      intro a; simp only [mapKeysM, pure_bind]
    rw [e, e]
    exact mapValsM_akin ha
  | @cons p' p ps' ps hp h ih =>
    obtain ⟨k, v⟩ := p
    obtain ⟨k', v'⟩ := p'
    obtain ⟨hk, hv⟩ := hp
    simp only at hk hv
    simp only [mapKeysM, bind_assoc]
    refine hk.bind fun key hkey => Akin.skip.bind fun kt _ => ?_
    by_cases h1 : (kt.isCompound && !kt.isArray) = true
    · simp only [h1, if_true]
      rw [e0]
      exact Akin.throw
    · simp only [h1]
      by_cases h2 : key.hashable = true
      · simp only [h2, if_true]
        exact ih (mapInsert_akin off ha hkey hv)
      · simp only [h2]
        simp only [Bool.false_eq_true, if_false]
        rw [e0]
        exact Akin.throw

theorem compM_akin {var : String} {c r c' r' : M Value} (hc : Akin.Val X c' c) (hr : Akin.Val X r' r) :
    ∀ xs : List Value, (∀ x ∈ xs, x.Free X) → Akin X (fun vs => ∀ v ∈ vs, v.Free X) (compM var c' r' xs) (compM var c r xs)
  | [], _ => Akin.pure (by simp)
  | x :: xs, h => by
    unfold compM
    refine Akin.bind (P := fun o => ∀ v, o = some v → v.Free X)
      (Akin.withScope (h x (by simp)) (hc.bind fun cv _ => Akin.ite (hr.bind fun v hv => Akin.pure (by rintro _ ⟨⟩; exact hv))
        (Akin.pure (by rintro _ ⟨⟩)))) fun o ho =>
      (compM_akin hc hr xs fun y hy => h y (by simp [hy])).bind fun vs hvs => Akin.pure ?_
    cases o with
    | none => exact hvs
    | some v =>
      intro w hw
      rcases List.mem_cons.1 hw with rfl | hw
      · exact ho _ rfl
      · exact hvs w hw

section
variable {env other : Env} (hd : env.FreeData X)

theorem builtin_free {groups v : Value} {name : String} (hg : groups.Free X) (hn : X.name name = false)
    (h : builtinValue env groups name = some v) : v.Free X := by
  unfold builtinValue at h
  split at h
  · cases h; simp [Value.Free]
  · cases h; simp [Value.Free]
  · cases h; simp [Value.Free]
  · cases h; simp [Value.Free]
  · cases h; exact hg
  · rw [Option.map_eq_some_iff] at h
    obtain ⟨f, hf, rfl⟩ := h
    unfold builtinNamed at hf
    split at hf <;> cases hf <;> first | rfl | exact hn

theorem builtin_same {groups : Value} {name : String} (hn : X.name name = false) :
    builtinValue (env.exchange X other) groups name = builtinValue env groups name := by
  unfold builtinValue
  split
  · rfl
  · rfl
  · have hn : X.timezone = false := hn
    simp [Env.exchange, hn]
  · have hn : X.timezone = false := hn
    simp [Env.exchange, hn]
  · rfl
  · rfl

include hd

theorem ctxResolve_akin {thing : Value} (ht : thing.Free X) (name : String) (b : Bool) (hn : b = true → X.name name = false) :
    Akin.Val X (ctxResolve (env.exchange X other) thing name b) (ctxResolve env thing name b) := by
  refine ⟨fun s hs => ⟨?_, ?_⟩⟩
  · unfold ctxResolve
    split
    · rw [builtin_same (hn ‹_›)]
    · rfl
  · unfold ctxResolve
    split
    · split
      · rename_i v hv
        exact ⟨fun w hw => (by cases hw; exact builtin_free hs.groups (hn ‹_›) hv), hs⟩
      · exact ⟨fun w hw => (by cases hw), hs⟩
    · split
      · rename_i a ha
        exact ⟨fun w hw => (by cases hw; exact hs.scopes _ (List.mem_of_find?_eq_some ha)), hs⟩
      · exact ⟨fun w hw => hd.resolver _ _ _ ht hw, ⟨hs.scopes, hs.groups⟩⟩

theorem evalSymbol_akin {thing : Value} (ht : thing.Free X) (name : String) (rt : DataType) (b : Bool)
    (hn : b = true → X.name name = false) :
    Akin.Val X (evalSymbol (env.exchange X other) thing name rt b) (evalSymbol env thing name rt b) := by
  unfold evalSymbol
  refine Akin.bind (P := Value.Free X) (Akin.catch (ctxResolve_akin hd ht name b hn) fun e => ?_) fun v hv =>
    Akin.lift (by rw [newValue_same hv]) fun w hw => checkSymbol_ok hw ▸ newValue_free hv
  have : (env.exchange X other).defaultValue = env.defaultValue := rfl
  rw [this]
  split
  · exact Akin.pure (hd.default _ ‹_›)
  · exact Akin.throw

theorem evalGetAttr_akin {o : Value} (ho : o.Free X) (name : String) :
    Akin.Val X (evalGetAttr (env.exchange X other) o name) (evalGetAttr env o name) := by
  refine ⟨fun s hs => ?_⟩
  obtain ⟨hc0, hc⟩ := (ctxResolve_akin (other := other) hd ho name false (by simp)).out s hs
  unfold evalGetAttr
  rw [resolveAttr_same, hc0]
  have hdef : (env.exchange X other).defaultValue = env.defaultValue := rfl
  rw [hdef]
  split
  · have h := resolveAttr_free ho ‹_›
    exact ⟨by rw [newValue_same h], fun w hw => (by cases hw; exact newValue_free h), hs⟩
  · split
    · split
      · rename_i h; rw [h] at hc
        have h := hc.1 _ rfl
        exact ⟨by rw [newValue_same h], fun w hw => (by cases hw; exact newValue_free h), hc.2⟩
      · rename_i h; rw [h] at hc
        split
        · split
          · have h := hd.default _ ‹_›
            exact ⟨by rw [newValue_same h], fun w hw => (by cases hw; exact newValue_free h), hc.2⟩
          · exact ⟨rfl, fun w hw => (by cases hw), hc.2⟩
        · exact ⟨rfl, fun w hw => (by cases hw), hc.2⟩
    · exact ⟨rfl, fun w hw => (by cases hw), hs⟩

variable {dc dc' : DecCtx} (hdc : X.decimals = false → dc' = dc)
include hdc

theorem callLogged_akin {f : Value} (hf : f.Free X) {args : List Value} (ha : ∀ a ∈ args, a.Free X) :
    Akin.Val X (callLogged (env.exchange X other) dc' f args) (callLogged env dc f args) :=
  ⟨fun s hs => ⟨by simp only [callLogged, callBasic_same hdc hf], fun v hv => callBasic_free hd ha hv, ⟨hs.scopes, hs.groups⟩⟩⟩

theorem mapCalls_akin {f : Value} (hf : f.Free X) : ∀ xs : List Value, (∀ a ∈ xs, a.Free X) →
    Akin X (fun vs => ∀ v ∈ vs, v.Free X) (mapCalls (env.exchange X other) dc' f xs) (mapCalls env dc f xs)
  | [], _ => Akin.pure (by simp)
  | x :: xs, h => by
    refine (callLogged_akin hd hdc hf (by simpa using h x (by simp))).bind fun y hy =>
      (mapCalls_akin hf xs fun a ha => h a (by simp [ha])).bind fun ys hys => Akin.pure ?_
    intro w hw
    rcases List.mem_cons.1 hw with rfl | hw
    · exact hy
    · exact hys w hw

theorem filterCalls_akin {f : Value} (hf : f.Free X) : ∀ xs : List Value, (∀ a ∈ xs, a.Free X) →
    Akin X (fun vs => ∀ v ∈ vs, v.Free X) (filterCalls (env.exchange X other) dc' f xs) (filterCalls env dc f xs)
  | [], _ => Akin.pure (by simp)
  | x :: xs, h => by
    refine (callLogged_akin hd hdc hf (by simpa using h x (by simp))).bind fun y hy =>
      (filterCalls_akin hf xs fun a ha => h a (by simp [ha])).bind fun ys hys => Akin.pure ?_
    intro w hw
    split at hw
    · rcases List.mem_cons.1 hw with rfl | hw
      · exact h _ (by simp)
      · exact hys w hw
    · exact hys w hw

theorem callFn_akin {f : Value} (hf : f.Free X) {args : List Value} (ha : ∀ a ∈ args, a.Free X) :
    Akin.Val X (callFn (env.exchange X other) dc' f args) (callFn env dc f args) := by
  unfold callFn
  split
  · refine Akin.bind (P := fun _ => True) ⟨fun s hs => ⟨rfl, fun _ _ => trivial, ⟨hs.scopes, hs.groups⟩⟩⟩ fun _ _ => ?_
    refine Akin.bind (P := fun xs => ∀ x ∈ xs, x.Free X) (.lift rfl fun xs hx => members_free (ha _ (by simp)) hx)
      fun xs hx => (mapCalls_akin hd hdc (ha _ (by simp)) xs hx).bind fun ys hy => Akin.pure (tuple_free hy)
  · refine Akin.bind (P := fun _ => True) ⟨fun s hs => ⟨rfl, fun _ _ => trivial, ⟨hs.scopes, hs.groups⟩⟩⟩ fun _ _ => ?_
    refine Akin.bind (P := fun xs => ∀ x ∈ xs, x.Free X) (.lift rfl fun xs hx => members_free (ha _ (by simp)) hx)
      fun xs hx => (filterCalls_akin hd hdc (ha _ (by simp)) xs hx).bind fun ys hy => Akin.pure (tuple_free hy)
  · exact callLogged_akin hd hdc hf ha

theorem finishCall_akin {rt : DataType} {f : Value} (hf : f.Free X) {args : List Value} (ha : ∀ a ∈ args, a.Free X) :
    Akin.Val X (finishCall (env.exchange X other) dc' rt f args) (finishCall env dc rt f args) := by
  unfold finishCall
  refine (Akin.catch (callFn_akin hd hdc hf ha) fun e => Akin.throw).bind fun r hr =>
    Akin.bind (P := Value.Free X) (.lift rfl fun w hw => coerceVerify_free hr hw) fun w hw => ?_
  rw [localise_same hw]
  exact Akin.skip.bind fun t _ => Akin.ite (Akin.pure (localise_free hw)) Akin.throw

theorem evalCall_akin {ft rt : DataType} {f : Value} (hf : f.Free X) {args : List Value} (ha : ∀ a ∈ args, a.Free X) :
    Akin.Val X (evalCall (env.exchange X other) dc' ft rt f args) (evalCall env dc ft rt f args) := by
  unfold evalCall
  exact Akin.ite (finishCall_akin hd hdc hf ha) (Akin.skip.bind fun _ _ => finishCall_akin hd hdc hf ha)

/-! ### Expressions -/

variable {thing : Value} (ht : thing.Free X)
include ht

mutual
theorem eval_akin : ∀ e : Expr, e.Free X → Akin.Val X (eval (env.exchange X other) dc' thing e) (eval env dc thing e)
  | .lit v t, h => Akin.pure h
  | .array xs, h => (seqM_akin (evals_akin xs h)).bind fun vs hvs => Akin.pure (tuple_free hvs)
  | .set xs, h => (setM_akin (acc := []) (by simp) (evals_akin xs h)).bind fun vs hvs => Akin.pure (allFree_iff.2 hvs)
  | .mapping kvs, h => by
      simp only [eval]
      rw [← bind_assoc, ← bind_assoc]
      exact (mapM_akin _ (evalPairs_akin kvs h) .nil).bind fun vs hvs => Akin.pure (pairsFree_iff.2 hvs)
  | .bin op l r, h => evalBin_akin hdc h.1 (eval_akin l h.2.1) (eval_akin r h.2.2)
  | .comp r var it c, h => by
      simp only [eval]
      refine (eval_akin it h.2.1).bind fun v hv => Akin.skip.bind fun t _ => Akin.ite ?_ Akin.throw
      refine Akin.bind (P := fun xs => ∀ x ∈ xs, x.Free X) (.lift rfl fun xs hx => members_free hv hx) fun xs hx => ?_
      exact (compM_akin (eval_akin c h.2.2) (eval_akin r h.1) xs hx).bind fun vs hvs => Akin.pure (tuple_free hvs)
  | .contains c m, h => (eval_akin c h.1).bind fun _ _ => Akin.skip.bind fun _ _ => (eval_akin m h.2).bind fun _ _ =>
      Akin.skip.bind fun _ _ => akin_bool _
  | .getAttr o name safe, h => by
      simp only [eval]
      exact (eval_akin o h).bind fun v hv => Akin.ite akin_none (evalGetAttr_akin hd hv name)
  | .getItem c i safe, h => by
      simp only [eval]
      refine (eval_akin c h.1).bind fun v hv => Akin.ite (Akin.ite akin_none Akin.throw) ?_
      refine (eval_akin i h.2).bind fun _ _ => Akin.bind (P := fun o => ∀ w, o = some w → w.Free X)
        (.lift rfl fun o ho w hw => item_free hv (opGetItem_itemOf (by rw [ho, hw]))) fun o ho => ?_
      cases o with
      | some w => simp only [newValue_same (ho w rfl)]; exact Akin.pure (newValue_free (ho w rfl))
      | none => exact Akin.ite akin_none Akin.throw
  | .getSlice c a b safe, h => by
      simp only [eval]
      refine (eval_akin c h.1).bind fun v hv => Akin.ite (Akin.ite akin_none Akin.throw) ?_
      unfold evalSlice
      exact (eval_akin a h.2.1).bind fun _ _ => Akin.skip.bind fun _ _ => (eval_akin b h.2.2).bind fun _ _ =>
        Akin.skip.bind fun _ _ => Akin.bind (P := Value.Free X) (.lift rfl fun w hw => slice_free hv hw) fun w hw =>
          Akin.pure (coerce_free w hw)
  | .sym name rt b, h => by simp only [eval]; exact evalSymbol_akin hd ht name rt b h
  | .call f args, h => by
      simp only [eval]
      exact (eval_akin f h.1).bind fun fv hfv => Akin.ite ((seqM_akin (evals_akin args h.2)).bind fun vs hvs =>
        evalCall_akin hd hdc hfv hvs) Akin.throw
  | .tern c t f, h => (eval_akin c h.1).bind fun v _ => Akin.ite (eval_akin t h.2.1) (eval_akin f h.2.2)
  | .not e, h => (eval_akin e h).bind fun v _ => akin_bool _
  | .neg e, h => (eval_akin e h.2).bind fun v hv => Akin.lift (by rw [hdc h.1]) fun w hw => opNeg_free hw
theorem evals_akin : ∀ es : List Expr, Expr.AllFree X es →
    List.Forall₂ (Akin.Val X) (evals (env.exchange X other) dc' thing es) (evals env dc thing es)
  | [], _ => .nil
  | e :: es, h => .cons (eval_akin e h.1) (evals_akin es h.2)
theorem evalPairs_akin : ∀ es : List (Expr × Expr), Expr.PairsFree X es →
    List.Forall₂ (fun p' p => Akin.Val X p'.1 p.1 ∧ Akin.Val X p'.2 p.2)
      (evalPairs (env.exchange X other) dc' thing es) (evalPairs env dc thing es)
  | [], _ => .nil
  | (k, v) :: es, h => .cons ⟨eval_akin k h.1, eval_akin v h.2.1⟩ (evalPairs_akin es h.2.2)
end
end

end

end RE
