import Verif.Props.RuleBuiltins

/-!
# The values rules give are as Python guarantees (C74)

Sets whose members are hashable and pairwise unequal, mappings whose keys are.
-/

set_option linter.unusedSimpArgs false
set_option linter.unusedVariables false
set_option linter.unusedTactic false
set_option linter.unreachableTactic false
set_option linter.unusedSectionVars false

namespace RE

/-! ### Specification -/

/-- **Specification.** What the embedding program provides is made of sets and dictionaries as Python makes them: what its
resolver gives for an object that is, what its functions return for arguments that are, the default value and the random
numbers. -/
structure Env.DataOk (env : Env) : Prop where
  resolver : ∀ o name v, o.WF env.utcoffset → env.resolver o name = .ok v → v.WF env.utcoffset
  functions : ∀ n args v, (∀ a ∈ args, a.WF env.utcoffset) → env.callUser n args = .ok v → v.WF env.utcoffset
  default : ∀ v, env.defaultValue = some v → v.WF env.utcoffset
  random : ∀ n, (env.random n).WF env.utcoffset

/-- what evaluations keep in the thread: the variables of comprehensions and the groups of the last match -/
structure St.Ok (off : TzDb) (s : St) : Prop where
  scopes : ∀ a ∈ s.scopes, a.value.WF off
  groups : s.groups.WF off

/-! ### Values -/

/-- not a collection -/
def Value.isFlat : Value → Bool
  | .seq .. | .set _ | .map .. => false
  | _ => true

theorem flat_wf {off : TzDb} {v : Value} (h : v.isFlat = true) : v.WF off := by
  cases v <;> simp [Value.isFlat] at h <;> simp [Value.WF]

theorem tuple_wf {off : TzDb} {xs : List Value} (h : ∀ x ∈ xs, x.WF off) : (Value.tuple xs).WF off := by
  show Value.AllWF off xs ∧ _
  exact ⟨allWF_iff.2 h, by simp⟩

theorem list_wf {off : TzDb} {xs : List Value} (h : ∀ x ∈ xs, x.WF off) : (Value.seq .list xs).WF off := by
  show Value.AllWF off xs ∧ _
  exact ⟨allWF_iff.2 h, by simp⟩

theorem hashable_members {off : TzDb} {k : SeqKind} {xs : List Value} (hw : (Value.seq k xs).WF off)
    (h : (Value.seq k xs).hashable = true) : Value.allHashable xs = true := by
  cases k with
  | tuple => simpa [Value.hashable] using h
  | list => simp [Value.hashable] at h
  | range =>
    rw [allHashable_iff]
    intro x hx
    obtain ⟨i, rfl⟩ := hw.2 rfl x hx
    rfl

mutual
theorem coerce_hashable {off : TzDb} : ∀ v : Value, v.WF off → v.hashable = true → (coerce off v).hashable = true
  | .seq k xs, hw, h => by
    have := hashable_members hw h
    simp only [coerce, Value.hashable]
    exact coerces_hashable xs hw.1 this
  | .set _, _, h => by simp [Value.hashable] at h
  | .map .., _, h => by simp [Value.hashable] at h
  | .none, _, _ | .bool _, _, _ | .int _, _, _ | .float _, _, _ | .dec _, _, _ | .str _, _, _ | .bytes _, _, _
  | .date _, _, _ | .datetime .., _, _ | .timedelta _, _, _ | .builtinFn _, _, _ | .userFn _, _, _ | .method .., _, _
  | .obj _, _, _ | .undef, _, _ => by simp [coerce, Value.hashable]
theorem coerces_hashable {off : TzDb} : ∀ xs : List Value, Value.AllWF off xs → Value.allHashable xs = true →
    Value.allHashable (coerceList off xs) = true
  | [], _, _ => rfl
  | x :: xs, hw, h => by
    simp only [Value.allHashable, Bool.and_eq_true] at h
    simp only [coerceList, Value.allHashable, Bool.and_eq_true]
    exact ⟨coerce_hashable x hw.1 h.1, coerces_hashable xs hw.2 h.2⟩
end

/-- a dictionary that is being filled -/
structure DictOk (off : TzDb) {α : Type} (P : α → Prop) (kvs : List (Value × α)) : Prop where
  items : ∀ p ∈ kvs, p.1.WF off ∧ p.1.hashable = true ∧ P p.2
  distinct : kvs.Pairwise (fun p q => pyEq off p.1 q.1 = false)

theorem mapInsert_first {α : Type} {off : TzDb} {k : Value} {v : α} : ∀ {acc : List (Value × α)},
    ∀ p ∈ mapInsert off acc k v, (p.1 = k ∧ ∀ q ∈ acc, pyEq off q.1 k = false) ∨ ∃ q ∈ acc, q.1 = p.1
  | [] => by intro p hp; simp [mapInsert] at hp; subst hp; exact .inl ⟨rfl, by simp⟩
  | (k', v') :: acc => by
    intro p hp
    unfold mapInsert at hp
    split at hp
    · rcases List.mem_cons.1 hp with rfl | hp
      · exact .inr ⟨(k', v'), by simp, rfl⟩
      · exact .inr ⟨p, by simp [hp], rfl⟩
    · rename_i hne
      rcases List.mem_cons.1 hp with rfl | hp
      · exact .inr ⟨(k', v'), by simp, rfl⟩
      · rcases mapInsert_first p hp with ⟨h, h'⟩ | ⟨q, hq, h⟩
        · refine .inl ⟨h, fun q hq => ?_⟩
          rcases List.mem_cons.1 hq with rfl | hq
          · simpa using hne
          · exact h' q hq
        · exact .inr ⟨q, by simp [hq], h⟩

theorem mapInsert_distinct {α : Type} {off : TzDb} {k : Value} {v : α} : ∀ {acc : List (Value × α)},
    acc.Pairwise (fun p q => pyEq off p.1 q.1 = false) →
    (mapInsert off acc k v).Pairwise (fun p q => pyEq off p.1 q.1 = false)
  | [], _ => by simp [mapInsert]
  | (k', v') :: acc, h => by
    rw [List.pairwise_cons] at h
    unfold mapInsert
    split
    · rw [List.pairwise_cons]; exact h
    · rename_i hne
      rw [List.pairwise_cons]
      refine ⟨fun p hp => ?_, mapInsert_distinct h.2⟩
      rcases mapInsert_first p hp with ⟨h1, -⟩ | ⟨q, hq, h1⟩
      · rw [h1]; simpa using hne
      · rw [← h1]; exact h.1 q hq

theorem DictOk.insert {α : Type} {off : TzDb} {P : α → Prop} {acc : List (Value × α)} {k : Value} {v : α}
    (h : DictOk off P acc) (hk : k.WF off) (hh : k.hashable = true) (hv : P v) : DictOk off P (mapInsert off acc k v) := by
  refine ⟨fun p hp => ?_, mapInsert_distinct h.distinct⟩
  obtain ⟨g1, g2⟩ := mapInsert_mem off acc k v p hp
  refine ⟨?_, ?_, ?_⟩
  · rcases g1 with g | ⟨q, hq, g⟩
    · rw [g]; exact hk
    · rw [← g]; exact (h.items q hq).1
  · rcases g1 with g | ⟨q, hq, g⟩
    · rw [g]; exact hh
    · rw [← g]; exact (h.items q hq).2.1
  · rcases g2 with g | ⟨q, hq, g⟩
    · rw [g]; exact hv
    · rw [← g]; exact (h.items q hq).2.2

theorem mapFold_ok {α : Type} {off : TzDb} {P : α → Prop} : ∀ {kvs acc : List (Value × α)}, DictOk off P acc →
    (∀ p ∈ kvs, p.1.WF off ∧ p.1.hashable = true ∧ P p.2) →
    DictOk off P (kvs.foldl (fun acc p => mapInsert off acc p.1 p.2) acc)
  | [], _, h, _ => h
  | (k, v) :: kvs, acc, h, hk => by
    have := hk (k, v) (by simp)
    rw [List.foldl_cons]
    exact mapFold_ok (h.insert this.1 this.2.1 this.2.2) fun p hp => hk p (by simp [hp])

theorem dict_wf {off : TzDb} {k : MapKind} {kvs : List (Value × Value)} (h : DictOk off (Value.WF off) kvs) :
    (Value.map k kvs).WF off := by
  simp only [Value.WF]
  exact ⟨pairsWF_iff.2 fun p hp => ⟨(h.items p hp).1, (h.items p hp).2.2⟩, fun p hp => (h.items p hp).2.1, h.distinct⟩

mutual
/-- `coerce_value` keeps values as they should be -/
theorem coerce_wf {off : TzDb} : ∀ v : Value, v.WF off → (coerce off v).WF off
  | .seq k xs, h => by
    simp only [coerce]
    exact tuple_wf (allWF_iff.1 (coerces_wf xs h.1))
  | .set xs, h => by simpa only [coerce] using h
  | .map k kvs, h => by
    simp only [Value.WF] at h
    simp only [coerce]
    exact dict_wf (mapFold_ok ⟨by simp, List.Pairwise.nil⟩ (coercep_wf kvs h.1 h.2.1))
  | .none, _ | .bool _, _ | .int _, _ | .float _, _ | .dec _, _ | .str _, _ | .bytes _, _
  | .date _, _ | .datetime .., _ | .timedelta _, _ | .builtinFn _, _ | .userFn _, _ | .method .., _
  | .obj _, _ | .undef, _ => by simp [coerce, Value.WF]
theorem coerces_wf {off : TzDb} : ∀ xs : List Value, Value.AllWF off xs → Value.AllWF off (coerceList off xs)
  | [], _ => trivial
  | x :: xs, h => ⟨coerce_wf x h.1, coerces_wf xs h.2⟩
theorem coercep_wf {off : TzDb} : ∀ kvs : List (Value × Value), Value.PairsWF off kvs →
    (∀ p ∈ kvs, p.1.hashable = true) →
    ∀ p ∈ coercePairs off kvs, p.1.WF off ∧ p.1.hashable = true ∧ p.2.WF off
  | [], _, _ => by simp [coercePairs]
  | (k, v) :: kvs, h, hh => by
    intro p hp
    simp only [coercePairs, List.mem_cons] at hp
    rcases hp with rfl | hp
    · exact ⟨coerce_wf k h.1, coerce_hashable k h.1 (hh (k, v) (by simp)), coerce_wf v h.2.1⟩
    · exact coercep_wf kvs h.2.2 (fun p hp => hh p (by simp [hp])) p hp
end

theorem localise_wf {env : Env} {off : TzDb} {v : Value} (h : v.WF off) : (localise env v).WF off := by
  unfold localise
  split
  · simp [Value.WF]
  · exact h

theorem newValue_wf {env : Env} {v : Value} (h : v.WF env.utcoffset) : (newValue env v).WF env.utcoffset :=
  localise_wf (coerce_wf v h)

theorem members_wf {off : TzDb} {v : Value} {xs : List Value} (hv : v.WF off) (h : v.members = .ok xs) :
    ∀ x ∈ xs, x.WF off := by
  cases v <;> simp only [Value.members, Except.ok.injEq, reduceCtorEq] at h <;> subst h
  case str s => intro x hx; obtain ⟨c, -, rfl⟩ := List.mem_map.1 hx; simp [Value.WF]
  case bytes b => intro x hx; obtain ⟨c, -, rfl⟩ := List.mem_map.1 hx; simp [Value.WF]
  case seq k ys => exact allWF_iff.1 hv.1
  case set ys => exact allWF_iff.1 hv.1
  case map k kvs =>
    intro x hx
    obtain ⟨p, hp, rfl⟩ := List.mem_map.1 hx
    exact (pairsWF_iff.1 hv.1 p hp).1

theorem setOfList_wf {off : TzDb} {xs ys : List Value} (hx : ∀ x ∈ xs, x.WF off)
    (h : setOfList off xs = .ok ys) : (Value.set ys).WF off := by
  have hm := setOfList_mem h
  unfold setOfList at h
  split at h
  · rename_i hh
    cases h
    simp only [Value.WF]
    exact ⟨allWF_iff.2 fun y hy => hx y (hm y hy), fun y hy => allHashable_mem hh y (hm y hy),
      setFold_pairwise List.Pairwise.nil⟩
  · cases h

/-! ### Operators -/

theorem numOp_flat {env : Env} {dc : DecCtx} {op : ArithOp} {a b v : Value} (h : numOp env dc op a b = .ok v) :
    v.isFlat = true := by
  have hd : ∀ {x : Except DecErr Dec} {v : Value}, (x.mapError Err.ofDec).map Value.dec = .ok v → v.isFlat = true := by
    intro x v h; cases x <;> cases h; rfl
  have hr : ∀ {x : Except Err RawNum} {v : Value}, x.map RawNum.toValue = .ok v → v.isFlat = true := by
    intro x v h
    rcases x with e | r <;> cases h
    cases r <;> rfl
  unfold numOp at h
  repeat' split at h
  all_goals first
    | exact hd h
    | exact hr h
    | (cases h; rfl)
    | cases h

theorem mkDatetime_flat {us : Int} {tz : Option Nat} {v : Value} (h : mkDatetime us tz = .ok v) : v.isFlat = true := by
  unfold mkDatetime at h; split at h <;> cases h; rfl
theorem mkTimedelta_flat {us : Int} {v : Value} (h : mkTimedelta us = .ok v) : v.isFlat = true := by
  unfold mkTimedelta at h; split at h <;> cases h; rfl

theorem opAdd_flat {env : Env} {dc : DecCtx} {a b v : Value} (h : opAdd env dc a b = .ok v) : v.isFlat = true := by
  simp only [opAdd, except_bind_ok] at h
  obtain ⟨_, -, h⟩ := h
  unfold pyAdd at h
  split at h
  · exact mkDatetime_flat h
  · exact mkDatetime_flat h
  · exact mkTimedelta_flat h
  · cases h; rfl
  · cases h; rfl
  · exact numOp_flat h

theorem opSub_flat {env : Env} {dc : DecCtx} {a b v : Value} (h : opSub env dc a b = .ok v) : v.isFlat = true := by
  simp only [opSub, except_bind_ok] at h
  obtain ⟨_, -, h⟩ := h
  unfold pySub at h
  split at h
  · split at h
    · exact mkTimedelta_flat h
    · split at h <;> exact mkTimedelta_flat h
    · cases h
  · exact mkDatetime_flat h
  · exact mkTimedelta_flat h
  · exact numOp_flat h

theorem opArith_flat {env : Env} {dc : DecCtx} {op : ArithOp} {a b v : Value} (h : opArith env dc op a b = .ok v) :
    v.isFlat = true := by
  unfold opArith at h
  split at h
  · rename_i w hw
    cases h
    exact numOp_flat hw
  · split at h <;> cases h

theorem opNeg_flat {dc : DecCtx} {a v : Value} (h : opNeg dc a = .ok v) : v.isFlat = true := by
  cases a <;> simp [opNeg, isNumeric, pyNeg] at h
  · cases h; rfl
  · cases h; rfl
  · rename_i d
    rcases hd : decNeg dc d with e | d <;> rw [hd] at h <;> cases h
    rfl
  · exact mkTimedelta_flat h

theorem opBitSet_wf {env : Env} {op : BitOp} {xs : List Value} {b v : Value}
    (hx : (Value.set xs).WF env.utcoffset) (hb : b.WF env.utcoffset)
    (h : opBitSet env.utcoffset op xs b = .ok v) : v.WF env.utcoffset := by
  simp only [opBitSet, except_bind_ok] at h
  obtain ⟨bt, -, h⟩ := h
  split at h
  · cases b <;> simp only [reduceCtorEq] at h
    rename_i ys
    simp only [except_bind_ok, Except.ok.injEq] at h
    obtain ⟨zs, hz, rfl⟩ := h
    simp only [Value.WF, allWF_iff] at hx hb ⊢
    refine ⟨bitSet_members hx.1 hb.1 hz, bitSet_members hx.2.1 hb.2.1 hz, ?_⟩
    cases op <;> simp [bitSet] at hz <;> subst hz
    · exact hx.2.2.filter _
    · rw [List.pairwise_append]
      refine ⟨hx.2.2, hb.2.2.filter _, ?_⟩
      intro a ha b hb
      simp only [List.mem_filter, Bool.not_eq_eq_eq_not, Bool.not_true, List.any_eq_false] at hb
      simpa using hb.2 a ha
    · rw [List.pairwise_append]
      refine ⟨hx.2.2.filter _, hb.2.2.filter _, ?_⟩
      intro a ha b hb
      simp only [List.mem_filter, Bool.not_eq_eq_eq_not, Bool.not_true, List.any_eq_false] at ha hb
      simpa using hb.2 a ha.1
  · cases h

theorem item_wf {off : TzDb} {c v : Value} (hc : c.WF off) (h : ItemOf c v) : v.WF off := by
  cases h with
  | str c => simp [Value.WF]
  | bytes x => simp [Value.WF]
  | seq h => exact allWF_iff.1 hc.1 _ h
  | map h => exact (pairsWF_iff.1 hc.1 _ h).2

theorem slice_wf {off : TzDb} {c v : Value} {a b : Option Int} (hc : c.WF off) (h : pyGetSlice c a b = .ok v) :
    v.WF off := by
  cases c <;> simp only [pyGetSlice, Except.ok.injEq, reduceCtorEq] at h <;> subst h
  · simp [Value.WF]
  · simp [Value.WF]
  · simp only [Value.WF, allWF_iff] at hc ⊢
    exact ⟨fun x hx => hc.1 x (pySlice_mem hx), fun hk x hx => hc.2 hk x (pySlice_mem hx)⟩

theorem shortInt_same {env : Env} {v w : Value} (h : env.shortInt v = .ok w) : w = v := by
  cases shortInt_ok h; rfl

theorem attrValue_wf {env : Env} {k : AttrKind} {name : String} {o w : Value} (ho : o.WF env.utcoffset)
    (h : attrValue env k name o = .ok w) : w.WF env.utcoffset := by
  unfold attrValue at h
  repeat' split at h
  all_goals first
    | (cases h; done)
    | (cases h; exact ho)
    | (cases h; simp [Value.WF]; done)
    | (cases shortInt_same h; simp [Value.WF]; done)
    | (simp only [except_bind_ok, Except.ok.injEq] at h
       obtain ⟨_, _, rfl⟩ := h
       first | exact ho | exact tuple_wf (members_wf ho ‹_›))
    | (simp only [except_bind_ok, Except.ok.injEq] at h
       obtain ⟨xs, hx, ys, hy, rfl⟩ := h
       exact setOfList_wf (members_wf ho hx) hy)
    | (simp only [except_bind_ok] at h
       obtain ⟨r, hr, h⟩ := h
       cases shortInt_same h
       rcases stringToFlt_num hr with ⟨d, rfl⟩ | ⟨d, rfl⟩ | ⟨d, rfl⟩ <;> simp [Value.WF])
    | (simp only [except_bind_ok] at h
       obtain ⟨r, hr, _, -, h⟩ := h
       cases shortInt_same h
       rcases stringToFlt_num hr with ⟨d, rfl⟩ | ⟨d, rfl⟩ | ⟨d, rfl⟩ <;> simp [Value.WF])
    | (cases h
       refine tuple_wf fun x hx => ?_
       obtain ⟨p, hp, rfl⟩ := List.mem_map.1 hx
       first
         | exact (pairsWF_iff.1 ho.1 p hp).1
         | exact (pairsWF_iff.1 ho.1 p hp).2)

theorem coerceVerify_wf {off : TzDb} {v w : Value} (hv : v.WF off) (h : coerceVerify off v = .ok w) : w.WF off := by
  simp only [coerceVerify, except_bind_ok, Except.ok.injEq] at h
  obtain ⟨_, -, rfl⟩ := h
  exact coerce_wf v hv

theorem resolveAttr_wf {env : Env} {name : String} {o v : Value} (ho : o.WF env.utcoffset)
    (h : resolveAttr env o name = .ok v) : v.WF env.utcoffset := by
  unfold resolveAttr at h
  split at h
  · cases h
  · cases h
  · split at h
    · cases h
    · split at h
      · cases h
      · simp only [except_bind_ok] at h
        obtain ⟨w, hw, u, hu, _, -, h⟩ := h
        split at h <;> cases h
        exact coerceVerify_wf (attrValue_wf ho hw) hu

/-! ### Calls -/

theorem callMethod_flat {env : Env} {m : Method} {self v : Value} {args : List Value}
    (h : callMethod env m self args = .ok v) : v.isFlat = true := by
  unfold callMethod at h
  split at h
  · simp only at h
    split at h
    · cases h; rfl
    · split at h
      · cases h; rfl
      · split at h <;> cases h; rfl
  · simp only at h
    split at h
    · split at h <;> cases h; rfl
    · split at h
      · split at h <;> cases h; rfl
      · split at h <;> cases h; rfl
  · simp only [except_bind_ok, Except.ok.injEq] at h
    obtain ⟨_, _, _, _, rfl⟩ := h
    rfl
  · simp only [except_bind_ok, Except.ok.injEq] at h
    obtain ⟨_, _, _, _, rfl⟩ := h
    rfl
  · cases h

theorem foldlM_inv {α β : Type} {P : β → Prop} {f : β → α → Except Err β} (hf : ∀ b a b', P b → f b a = .ok b' → P b')
    : ∀ (xs : List α) {b b' : β}, P b → xs.foldlM f b = .ok b' → P b'
  | [], b, b', hb, h => by cases h; exact hb
  | x :: xs, b, b', hb, h => by
    simp only [List.foldlM_cons, except_bind_ok] at h
    obtain ⟨c, hc, h⟩ := h
    exact foldlM_inv hf xs (hf _ _ _ hb hc) h

theorem pySum_flat {env : Env} {dc : DecCtx} {xs : List Value} {v : Value} (h : pySum env dc xs = .ok v) :
    v.isFlat = true :=
  foldlM_inv (P := fun v => v.isFlat = true) (fun b a b' _ h => numOp_flat h) xs rfl h

theorem pyRange_wf {off : TzDb} {a b s : Int} : (Value.seq .list (pyRange a b s)).WF off := by
  refine list_wf fun x hx => ?_
  unfold pyRange at hx
  obtain ⟨i, -, rfl⟩ := List.mem_map.1 hx
  simp [Value.WF]

theorem range_wf {off : TzDb} {args : List Value} {v : Value} (h : builtinRange args = .ok v) : v.WF off := by
  unfold builtinRange at h
  simp only at h
  split at h
  all_goals first
    | (cases h; done)
    | (simp only [except_bind_ok] at h
       obtain ⟨a, -, h⟩ := h
       cases h
       exact pyRange_wf)
    | (simp only [except_bind_ok] at h
       obtain ⟨a, -, h⟩ := h
       repeat' split at h
       all_goals first
         | (cases h; exact pyRange_wf)
         | (simp only [except_bind_ok, Except.ok.injEq] at h
            obtain ⟨b, -, rfl⟩ := h
            exact pyRange_wf)
         | (simp only [except_bind_ok] at h
            obtain ⟨b, -, h⟩ := h
            obtain ⟨c, -, h⟩ := h
            cases h; exact pyRange_wf))

theorem split_wf {off : TzDb} {args : List Value} {v : Value} (h : builtinSplit args = .ok v) : v.WF off := by
  have hs : ∀ {x : Except Err (List (List Char))} {v : Value},
      (do let ps ← x; .ok (.tuple (ps.map fun p => .str (String.ofList p))) : Except Err Value) = .ok v → v.WF off := by
    intro x v h
    simp only [except_bind_ok, Except.ok.injEq] at h
    obtain ⟨ps, -, rfl⟩ := h
    refine tuple_wf fun x hx => ?_
    obtain ⟨p, -, rfl⟩ := List.mem_map.1 hx
    simp [Value.WF]
  unfold builtinSplit at h
  simp only at h
  split at h
  all_goals first
    | (cases h; done)
    | (simp only [except_bind_ok] at h
       obtain ⟨k, -, h⟩ := h
       split at h
       · exact hs (by simpa only [except_bind_ok] using h)
       · cases h)

theorem callBuiltin_wf {env : Env} (hd : env.DataOk) {dc : DecCtx} {f : Builtin} {args : List Value} {v : Value}
    (ha : ∀ a ∈ args, a.WF env.utcoffset) (h : callBuiltin env dc f args = .ok v) : v.WF env.utcoffset := by
  have hdec : ∀ {x : Except DecErr Dec} {v : Value}, (x.mapError Err.ofDec).map Value.dec = .ok v → v.isFlat = true := by
    intro x v h; cases x <;> cases h; rfl
  unfold callBuiltin at h
  split at h
  · exact flat_wf (hdec h)
  · cases h; simp [Value.WF]
  · cases h; simp [Value.WF]
  · exact flat_wf (mkTimedelta_flat h)
  · simp only [except_bind_ok, Except.ok.injEq] at h
    obtain ⟨_, -, rfl⟩ := h
    simp [Value.WF]
  · simp only [except_bind_ok, Except.ok.injEq] at h
    obtain ⟨_, -, rfl⟩ := h
    simp [Value.WF]
  · simp only [except_bind_ok] at h
    obtain ⟨_, -, h⟩ := h
    exact flat_wf (pySum_flat h)
  · simp only [except_bind_ok] at h
    obtain ⟨xs, hx, h⟩ := h
    exact members_wf (ha _ (by simp)) hx v (pyExtreme_mem h)
  · simp only [except_bind_ok] at h
    obtain ⟨xs, hx, h⟩ := h
    exact members_wf (ha _ (by simp)) hx v (pyExtreme_mem h)
  · unfold parseDatetime at h
    split at h <;> cases h <;> simp [Value.WF]
  · rename_i s
    rcases hp : parseFloat s.toList with e | d <;> rw [hp] at h <;> cases h
    simp [Value.WF]
  · rename_i s
    rcases hp : parseTimedelta s.toList with e | d <;> rw [hp] at h <;> cases h
    simp [Value.WF]
  · cases h; exact hd.random _
  · split at h
    · simp only [except_bind_ok] at h
      obtain ⟨q, -, h⟩ := h
      split at h <;> cases h
      exact hd.random _
    · cases h; exact hd.random _
  · exact range_wf h
  · exact split_wf h
  · cases h

theorem callBasic_wf {env : Env} (hd : env.DataOk) {dc : DecCtx} {f : Value} {args : List Value} {v : Value}
    (ha : ∀ a ∈ args, a.WF env.utcoffset) (h : callBasic env dc f args = .ok v) : v.WF env.utcoffset := by
  unfold callBasic at h
  split at h
  · exact callBuiltin_wf hd ha h
  · exact hd.functions _ _ _ ha h
  · exact flat_wf (callMethod_flat h)
  · cases h

/-! ### Computations -/

/-- in a thread whose variables and groups are as they should be, what the computation returns satisfies `P`, and the
thread is left like that -/
structure Keeps (off : TzDb) {α : Type} (P : α → Prop) (m : M α) : Prop where
  out : ∀ s, s.Ok off → (∀ v, (m s).1 = .ok v → P v) ∧ (m s).2.Ok off

section
variable {off : TzDb} {α β : Type} {P : α → Prop} {Q : β → Prop}

theorem Keeps.pure {v : α} (h : P v) : Keeps off P (Pure.pure v) :=
  ⟨fun s hs => ⟨fun w hw => (by cases hw; exact h), hs⟩⟩
theorem Keeps.throw {e : Err} : Keeps off P (M.throw e : M α) := ⟨fun s hs => ⟨fun w hw => (by cases hw), hs⟩⟩
theorem Keeps.lift {x : Except Err α} (h : ∀ v, x = .ok v → P v) : Keeps off P (M.lift x) := ⟨fun s hs => ⟨h, hs⟩⟩
theorem Keeps.skip {x : Except Err α} : Keeps off (fun _ => True) (M.lift x) := .lift fun _ _ => trivial
theorem Keeps.bind {m : M α} {f : α → M β} (hm : Keeps off P m) (hf : ∀ a, P a → Keeps off Q (f a)) :
    Keeps off Q (m >>= f) := by
  refine ⟨fun s hs => ?_⟩
  obtain ⟨h1, h2⟩ := hm.out s hs
  rw [M.bind_apply]
  rcases hx : m s with ⟨e | a, s1⟩ <;> rw [hx] at h1 h2
  · exact ⟨fun v hv => (by cases hv), h2⟩
  · exact (hf a (h1 a rfl)).out s1 h2
theorem Keeps.ite {c : Prop} [Decidable c] {x y : M α} (hx : Keeps off P x) (hy : Keeps off P y) :
    Keeps off P (if c then x else y) := by split <;> assumption
theorem Keeps.mono {P' : α → Prop} {m : M α} (h : Keeps off P m) (hp : ∀ v, P v → P' v) : Keeps off P' m :=
  ⟨fun s hs => ⟨fun v hv => hp v ((h.out s hs).1 v hv), (h.out s hs).2⟩⟩
theorem Keeps.withScope {m : M α} {a : Assignment} (ha : a.value.WF off) (h : Keeps off P m) :
    Keeps off P (M.withScope a m) := by
  refine ⟨fun s hs => ?_⟩
  have hs' : St.Ok off { s with scopes := s.scopes ++ [a] } := by
    refine ⟨fun b hb => ?_, hs.groups⟩
    rcases List.mem_append.1 hb with hb | hb
    · exact hs.scopes b hb
    · rw [List.mem_singleton] at hb; subst hb; exact ha
  obtain ⟨h1, h2⟩ := h.out _ hs'
  exact ⟨h1, ⟨fun b hb => h2.scopes b (List.dropLast_subset _ hb), h2.groups⟩⟩
theorem Keeps.catch {m : M α} {f : Err → M α} (hm : Keeps off P m) (hf : ∀ e, Keeps off P (f e)) :
    Keeps off P (M.catchErr m f) := by
  refine ⟨fun s hs => ?_⟩
  obtain ⟨h1, h2⟩ := hm.out s hs
  unfold M.catchErr
  rcases hx : m s with ⟨e | a, s1⟩ <;> rw [hx] at h1 h2
  · exact (hf e).out s1 h2
  · exact ⟨fun v hv => h1 v hv, h2⟩
end

/-- returns a value as it should be -/
abbrev Keeps.Val (off : TzDb) (m : M Value) : Prop := Keeps off (Value.WF off) m

section
variable {env : Env} (hd : env.DataOk)

theorem keeps_flat {off : TzDb} {x : Except Err Value} (h : ∀ v, x = .ok v → v.isFlat = true) : Keeps.Val off (M.lift x) :=
  .lift fun v hv => flat_wf (h v hv)
theorem keeps_bool {off : TzDb} (b : Bool) : Keeps.Val off (Pure.pure (Value.bool b)) := .pure (flat_wf rfl)
theorem keeps_none {off : TzDb} : Keeps.Val off (Pure.pure Value.none) := .pure (flat_wf rfl)

theorem opFuzzy_keeps {off : TzDb} (a b : Bool) (l r : Value) : Keeps.Val off (opFuzzy env a b l r) := by
  unfold opFuzzy
  repeat' split
  all_goals first
    | exact Keeps.throw
    | exact keeps_bool _
    | skip
  refine Keeps.bind (P := fun _ => True) ?_ (fun _ _ => keeps_bool _)
  refine ⟨fun s hs => ⟨fun _ _ => trivial, ⟨hs.scopes, ?_⟩⟩⟩
  refine tuple_wf fun x hx => ?_
  obtain ⟨g, -, rfl⟩ := List.mem_map.1 hx
  cases g <;> simp [Value.WF]

theorem bit_keeps {op : BitOp} {l r : M Value} (hl : Keeps.Val env.utcoffset l) (hr : Keeps.Val env.utcoffset r) :
    Keeps.Val env.utcoffset (do
      let a ← l
      let t ← M.lift (fromValue a)
      if DataType.eq t .float then do
        M.lift (assertNatural a)
        let b ← r
        M.lift (opBitNat env op a b)
      else
        match a with
        | .set xs => do
          let b ← r
          M.lift (opBitSet env.utcoffset op xs b)
        | _ => M.throw .mismatch : M Value) := by
  refine hl.bind fun a ha => Keeps.skip.bind fun t _ => Keeps.ite ?_ ?_
  · refine Keeps.skip.bind fun _ _ => hr.bind fun b hb => keeps_flat fun v h => ?_
    obtain ⟨n, rfl⟩ := opBitNat_ok h
    rfl
  · split
    · exact hr.bind fun b hb => Keeps.lift fun v h => opBitSet_wf ha hb h
    · exact Keeps.throw

theorem evalBin_keeps {dc : DecCtx} {op : BinOp} {l r : M Value} (hl : Keeps.Val env.utcoffset l)
    (hr : Keeps.Val env.utcoffset r) : Keeps.Val env.utcoffset (evalBin env dc op l r) := by
  cases op with
  | add => exact hl.bind fun a ha => hr.bind fun b hb => keeps_flat fun v h => opAdd_flat h
  | sub => exact hl.bind fun a ha => hr.bind fun b hb => keeps_flat fun v h => opSub_flat h
  | arith op => exact hl.bind fun a ha => Keeps.skip.bind fun _ _ => hr.bind fun b hb => Keeps.skip.bind fun _ _ =>
      keeps_flat fun v h => opArith_flat h
  | bit op => exact bit_keeps hl hr
  | shift op => exact bit_keeps hl hr
  | and => exact hl.bind fun a _ => Keeps.ite (hr.bind fun b _ => keeps_bool _) (keeps_bool _)
  | or => exact hl.bind fun a _ => Keeps.ite (keeps_bool _) (hr.bind fun b _ => keeps_bool _)
  | eq => exact hl.bind fun a _ => hr.bind fun b _ => keeps_bool _
  | ne => exact hl.bind fun a _ => hr.bind fun b _ => keeps_bool _
  | cmp op => exact hl.bind fun a _ => hr.bind fun b _ => Keeps.skip.bind fun _ _ => keeps_bool _
  | fuzzy x y =>
    refine hl.bind fun a _ => ?_
    split
    · exact hr.bind fun b _ => opFuzzy_keeps ..
    · exact hr.bind fun b _ => opFuzzy_keeps ..
    · exact Keeps.throw

theorem seqM_keeps {off : TzDb} : ∀ {ms : List (M Value)}, (∀ m ∈ ms, Keeps.Val off m) →
    Keeps off (fun vs => ∀ v ∈ vs, v.WF off) (seqM ms)
  | [], _ => Keeps.pure (by simp)
  | m :: ms, h => by
    refine (h m (by simp)).bind fun v hv => (seqM_keeps (ms := ms) fun m hm => h m (by simp [hm])).bind
      fun vs hvs => Keeps.pure ?_
    intro w hw
    rcases List.mem_cons.1 hw with rfl | hw
    · exact hv
    · exact hvs w hw

theorem setAdd_wf {off : TzDb} {acc : List Value} {v : Value} (ha : (Value.set acc).WF off) (hv : v.WF off)
    (hh : v.hashable = true) : (Value.set (setAdd off acc v)).WF off := by
  simp only [Value.WF, allWF_iff] at ha ⊢
  have hm : ∀ x ∈ setAdd off acc v, x ∈ acc ∨ x = v := fun x hx => setAdd_mem' hx
  refine ⟨fun x hx => ?_, fun x hx => ?_, setFold_pairwise (xs := [v]) ha.2.2⟩
  · rcases hm x hx with h | rfl
    · exact ha.1 x h
    · exact hv
  · rcases hm x hx with h | rfl
    · exact ha.2.1 x h
    · exact hh

theorem setM_keeps {off : TzDb} : ∀ {ms : List (M Value)} {acc : List Value}, (Value.set acc).WF off →
    (∀ m ∈ ms, Keeps.Val off m) → Keeps off (fun vs => (Value.set vs).WF off) (setM off acc ms)
  | [], acc, ha, _ => Keeps.pure ha
  | m :: ms, acc, ha, h => by
    unfold setM
    refine (h m (by simp)).bind fun v hv => ?_
    split
    · rename_i hh
      exact setM_keeps (setAdd_wf ha hv hh) fun m hm => h m (by simp [hm])
    · exact Keeps.throw

theorem mapKeysM_keeps {off : TzDb} : ∀ {ms : List (M Value × M Value)} {acc : List (Value × M Value)},
    DictOk off (Keeps.Val off) acc → (∀ p ∈ ms, Keeps.Val off p.1 ∧ Keeps.Val off p.2) →
    Keeps off (DictOk off (Keeps.Val off)) (mapKeysM off acc ms)
  | [], acc, ha, _ => Keeps.pure ha
  | (k, v) :: ms, acc, ha, h => by
    obtain ⟨h1, h2⟩ := h (k, v) (by simp)
    unfold mapKeysM
    refine h1.bind fun key hk => Keeps.skip.bind fun kt _ => Keeps.ite Keeps.throw ?_
    split
    · rename_i hh
      exact mapKeysM_keeps (ha.insert hk hh h2) (fun p hp => h p (by simp [hp]))
    · exact Keeps.throw

theorem mapValsM_keeps {off : TzDb} : ∀ {ks : List (Value × M Value)}, DictOk off (Keeps.Val off) ks →
    Keeps off (fun kvs => kvs.map (·.1) = ks.map (·.1) ∧ ∀ p ∈ kvs, p.2.WF off) (mapValsM ks)
  | [], _ => Keeps.pure (by simp)
  | (k, m) :: rest, h => by
    refine (h.items (k, m) (by simp)).2.2.bind fun v hv =>
      (mapValsM_keeps (ks := rest) ⟨fun p hp => h.items p (by simp [hp]), (List.pairwise_cons.1 h.distinct).2⟩).bind
        fun vs hvs => Keeps.pure ⟨by simp [hvs.1], ?_⟩
    intro p hp
    rcases List.mem_cons.1 hp with rfl | hp
    · exact hv
    · exact hvs.2 p hp

theorem mapping_keeps {off : TzDb} {ms : List (M Value × M Value)}
    (h : ∀ p ∈ ms, Keeps.Val off p.1 ∧ Keeps.Val off p.2) :
    Keeps.Val off (do
      let ks ← mapKeysM off [] ms
      let items ← mapValsM ks
      pure (.map .ordered items)) := by
  refine (mapKeysM_keeps (acc := []) ⟨by simp, List.Pairwise.nil⟩ h).bind fun ks hks =>
    (mapValsM_keeps hks).bind fun kvs hk => Keeps.pure (dict_wf ⟨fun p hp => ?_, ?_⟩)
  · have : p.1 ∈ ks.map (·.1) := hk.1 ▸ List.mem_map.2 ⟨p, hp, rfl⟩
    obtain ⟨q, hq, hqp⟩ := List.mem_map.1 this
    have := hks.items q hq
    rw [hqp] at this
    exact ⟨this.1, this.2.1, hk.2 p hp⟩
  · have h3 : (ks.map (·.1)).Pairwise (fun a b => pyEq off a b = false) := by
      rw [List.pairwise_map]; exact hks.distinct
    rw [← hk.1, List.pairwise_map] at h3
    exact h3

theorem compM_keeps {off : TzDb} {var : String} {c r : M Value} (hc : Keeps.Val off c) (hr : Keeps.Val off r) :
    ∀ xs : List Value, (∀ x ∈ xs, x.WF off) → Keeps off (fun vs => ∀ v ∈ vs, v.WF off) (compM var c r xs)
  | [], _ => Keeps.pure (by simp)
  | x :: xs, h => by
    unfold compM
    refine Keeps.bind (P := fun o => ∀ v, o = some v → v.WF off)
      (Keeps.withScope (h x (by simp)) (hc.bind fun cv _ => Keeps.ite (hr.bind fun v hv => Keeps.pure (by rintro _ ⟨⟩; exact hv))
        (Keeps.pure (by rintro _ ⟨⟩)))) fun o ho =>
      (compM_keeps hc hr xs fun y hy => h y (by simp [hy])).bind fun vs hvs => Keeps.pure ?_
    cases o with
    | none => exact hvs
    | some v =>
      intro w hw
      rcases List.mem_cons.1 hw with rfl | hw
      · exact ho _ rfl
      · exact hvs w hw

include hd

omit hd in
theorem builtin_wf {groups v : Value} {name : String} (hg : groups.WF env.utcoffset)
    (h : builtinValue env groups name = some v) : v.WF env.utcoffset := by
  unfold builtinValue at h
  split at h
  · cases h; simp [Value.WF]
  · cases h; simp [Value.WF]
  · cases h; simp [Value.WF]
  · cases h; simp [Value.WF]
  · cases h; exact hg
  · rw [Option.map_eq_some_iff] at h
    obtain ⟨f, -, rfl⟩ := h
    simp [Value.WF]

theorem ctxResolve_wf {thing : Value} (ht : thing.WF env.utcoffset) (name : String) (b : Bool) : Keeps.Val env.utcoffset (ctxResolve env thing name b) := by
  refine ⟨fun s hs => ?_⟩
  unfold ctxResolve
  split
  · split
    · rename_i v hv
      exact ⟨fun w hw => (by cases hw; exact builtin_wf hs.groups hv), hs⟩
    · exact ⟨fun w hw => (by cases hw), hs⟩
  · split
    · rename_i a ha
      exact ⟨fun w hw => (by cases hw; exact hs.scopes _ (List.mem_of_find?_eq_some ha)), hs⟩
    · exact ⟨fun w hw => hd.resolver _ _ _ ht hw, ⟨hs.scopes, hs.groups⟩⟩

theorem evalSymbol_keeps {thing : Value} (ht : thing.WF env.utcoffset) (name : String) (rt : DataType) (b : Bool) :
    Keeps.Val env.utcoffset (evalSymbol env thing name rt b) := by
  unfold evalSymbol
  refine Keeps.bind (P := Value.WF env.utcoffset) (Keeps.catch (ctxResolve_wf hd ht ..) fun e => ?_) fun v hv =>
    Keeps.lift fun w hw => checkSymbol_ok hw ▸ newValue_wf hv
  split
  · exact Keeps.pure (hd.default _ ‹_›)
  · exact Keeps.throw

theorem evalGetAttr_keeps {o : Value} (ho : o.WF env.utcoffset) (name : String) :
    Keeps.Val env.utcoffset (evalGetAttr env o name) := by
  refine ⟨fun s hs => ?_⟩
  have hc := (ctxResolve_wf hd ho name false).out s hs
  unfold evalGetAttr
  split
  · exact ⟨fun w hw => (by cases hw; exact newValue_wf (resolveAttr_wf ho ‹_›)), hs⟩
  · split
    · split
      · rename_i h; rw [h] at hc
        exact ⟨fun w hw => (by cases hw; exact newValue_wf (hc.1 _ rfl)), hc.2⟩
      · rename_i h; rw [h] at hc
        split
        · split
          · exact ⟨fun w hw => (by cases hw; exact newValue_wf (hd.default _ ‹_›)), hc.2⟩
          · exact ⟨fun w hw => (by cases hw), hc.2⟩
        · exact ⟨fun w hw => (by cases hw), hc.2⟩
    · exact ⟨fun w hw => (by cases hw), hs⟩

theorem callLogged_keeps {dc : DecCtx} {f : Value} {args : List Value} (ha : ∀ a ∈ args, a.WF env.utcoffset) :
    Keeps.Val env.utcoffset (callLogged env dc f args) :=
  ⟨fun s hs => ⟨fun v hv => callBasic_wf hd ha hv, ⟨hs.scopes, hs.groups⟩⟩⟩

theorem mapCalls_keeps {dc : DecCtx} {f : Value} : ∀ xs : List Value, (∀ a ∈ xs, a.WF env.utcoffset) →
    Keeps env.utcoffset (fun vs => ∀ v ∈ vs, v.WF env.utcoffset) (mapCalls env dc f xs)
  | [], _ => Keeps.pure (by simp)
  | x :: xs, h => by
    refine (callLogged_keeps hd (by simpa using h x (by simp))).bind fun y hy =>
      (mapCalls_keeps xs fun a ha => h a (by simp [ha])).bind fun ys hys => Keeps.pure ?_
    intro w hw
    rcases List.mem_cons.1 hw with rfl | hw
    · exact hy
    · exact hys w hw

theorem filterCalls_keeps {dc : DecCtx} {f : Value} : ∀ xs : List Value, (∀ a ∈ xs, a.WF env.utcoffset) →
    Keeps env.utcoffset (fun vs => ∀ v ∈ vs, v.WF env.utcoffset) (filterCalls env dc f xs)
  | [], _ => Keeps.pure (by simp)
  | x :: xs, h => by
    refine (callLogged_keeps hd (by simpa using h x (by simp))).bind fun y hy =>
      (filterCalls_keeps xs fun a ha => h a (by simp [ha])).bind fun ys hys => Keeps.pure ?_
    intro w hw
    split at hw
    · rcases List.mem_cons.1 hw with rfl | hw
      · exact h _ (by simp)
      · exact hys w hw
    · exact hys w hw

theorem callFn_wf {dc : DecCtx} {f : Value} {args : List Value} (ha : ∀ a ∈ args, a.WF env.utcoffset) :
    Keeps.Val env.utcoffset (callFn env dc f args) := by
  unfold callFn
  split
  · refine Keeps.bind (P := fun _ => True) ⟨fun s hs => ⟨fun _ _ => trivial, ⟨hs.scopes, hs.groups⟩⟩⟩ fun _ _ => ?_
    refine Keeps.bind (P := fun xs => ∀ x ∈ xs, x.WF env.utcoffset) (.lift fun xs hx => members_wf (ha _ (by simp)) hx)
      fun xs hx => (mapCalls_keeps hd xs hx).bind fun ys hy => Keeps.pure (tuple_wf hy)
  · refine Keeps.bind (P := fun _ => True) ⟨fun s hs => ⟨fun _ _ => trivial, ⟨hs.scopes, hs.groups⟩⟩⟩ fun _ _ => ?_
    refine Keeps.bind (P := fun xs => ∀ x ∈ xs, x.WF env.utcoffset) (.lift fun xs hx => members_wf (ha _ (by simp)) hx)
      fun xs hx => (filterCalls_keeps hd xs hx).bind fun ys hy => Keeps.pure (tuple_wf hy)
  · exact callLogged_keeps hd ha

theorem finishCall_keeps {dc : DecCtx} {rt : DataType} {f : Value} {args : List Value}
    (ha : ∀ a ∈ args, a.WF env.utcoffset) : Keeps.Val env.utcoffset (finishCall env dc rt f args) := by
  unfold finishCall
  exact (Keeps.catch (callFn_wf hd ha) fun e => Keeps.throw).bind fun r hr =>
    Keeps.bind (P := Value.WF env.utcoffset) (.lift fun w hw => coerceVerify_wf hr hw) fun w hw =>
      Keeps.skip.bind fun t _ => Keeps.ite (Keeps.pure (localise_wf hw)) Keeps.throw

theorem evalCall_keeps {dc : DecCtx} {ft rt : DataType} {f : Value} {args : List Value}
    (ha : ∀ a ∈ args, a.WF env.utcoffset) : Keeps.Val env.utcoffset (evalCall env dc ft rt f args) := by
  unfold evalCall
  exact Keeps.ite (finishCall_keeps hd ha) (Keeps.skip.bind fun _ _ => finishCall_keeps hd ha)
end

/-! ### Expressions -/

mutual
/-- the literals in the tree are no collections (those are nodes of their own) -/
def Expr.FlatLits : Expr → Prop
  | .lit v _ => v.isFlat = true
  | .array xs => Expr.FlatList xs
  | .set xs => Expr.FlatList xs
  | .mapping kvs => Expr.FlatPairs kvs
  | .bin _ l r => l.FlatLits ∧ r.FlatLits
  | .comp r _ it c => r.FlatLits ∧ it.FlatLits ∧ c.FlatLits
  | .contains c m => c.FlatLits ∧ m.FlatLits
  | .getAttr o _ _ => o.FlatLits
  | .getItem c i _ => c.FlatLits ∧ i.FlatLits
  | .getSlice c a b _ => c.FlatLits ∧ a.FlatLits ∧ b.FlatLits
  | .sym _ _ _ => True
  | .call f args => f.FlatLits ∧ Expr.FlatList args
  | .tern c t f => c.FlatLits ∧ t.FlatLits ∧ f.FlatLits
  | .not e => e.FlatLits
  | .neg e => e.FlatLits
def Expr.FlatList : List Expr → Prop
  | [] => True
  | x :: xs => x.FlatLits ∧ Expr.FlatList xs
def Expr.FlatPairs : List (Expr × Expr) → Prop
  | [] => True
  | (k, v) :: xs => k.FlatLits ∧ v.FlatLits ∧ Expr.FlatPairs xs
end

section
variable {env : Env} {thing : Value} (hd : env.DataOk) (ht : thing.WF env.utcoffset)
include hd ht

mutual
theorem eval_keeps {dc : DecCtx} : ∀ e : Expr, e.FlatLits → Keeps.Val env.utcoffset (eval env dc thing e)
  | .lit v t, h => Keeps.pure (flat_wf h)
  | .array xs, h => (seqM_keeps (evals_keeps xs h)).bind fun vs hvs => Keeps.pure (tuple_wf hvs)
  | .set xs, h => (setM_keeps (acc := []) (by simp [Value.WF, Value.AllWF]) (evals_keeps xs h)).bind fun vs hvs =>
      Keeps.pure hvs
  | .mapping kvs, h => mapping_keeps (evalPairs_keeps kvs h)
  | .bin op l r, h => evalBin_keeps (eval_keeps l h.1) (eval_keeps r h.2)
  | .comp r var it c, h => by
      simp only [eval]
      refine (eval_keeps it h.2.1).bind fun v hv => Keeps.skip.bind fun t _ => Keeps.ite ?_ Keeps.throw
      refine Keeps.bind (P := fun xs => ∀ x ∈ xs, x.WF env.utcoffset) (.lift fun xs hx => members_wf hv hx) fun xs hx => ?_
      exact (compM_keeps (eval_keeps c h.2.2) (eval_keeps r h.1) xs hx).bind fun vs hvs => Keeps.pure (tuple_wf hvs)
  | .contains c m, h => (eval_keeps c h.1).bind fun _ _ => Keeps.skip.bind fun _ _ => (eval_keeps m h.2).bind fun _ _ =>
      Keeps.skip.bind fun _ _ => keeps_bool _
  | .getAttr o name safe, h => by
      simp only [eval]
      exact (eval_keeps o h).bind fun v hv => Keeps.ite keeps_none (evalGetAttr_keeps hd hv name)
  | .getItem c i safe, h => by
      simp only [eval]
      refine (eval_keeps c h.1).bind fun v hv => Keeps.ite (Keeps.ite keeps_none Keeps.throw) ?_
      refine (eval_keeps i h.2).bind fun _ _ => Keeps.bind (P := fun o => ∀ w, o = some w → w.WF env.utcoffset)
        (.lift fun o ho w hw => item_wf hv (opGetItem_itemOf (by rw [ho, hw]))) fun o ho => ?_
      cases o with
      | some w => exact Keeps.pure (newValue_wf (ho w rfl))
      | none => exact Keeps.ite keeps_none Keeps.throw
  | .getSlice c a b safe, h => by
      simp only [eval]
      refine (eval_keeps c h.1).bind fun v hv => Keeps.ite (Keeps.ite keeps_none Keeps.throw) ?_
      unfold evalSlice
      exact (eval_keeps a h.2.1).bind fun _ _ => Keeps.skip.bind fun _ _ => (eval_keeps b h.2.2).bind fun _ _ =>
        Keeps.skip.bind fun _ _ => Keeps.bind (P := Value.WF env.utcoffset) (.lift fun w hw => slice_wf hv hw) fun w hw =>
          Keeps.pure (coerce_wf w hw)
  | .sym name rt b, h => by simp only [eval]; exact evalSymbol_keeps hd ht ..
  | .call f args, h => by
      simp only [eval]
      exact (eval_keeps f h.1).bind fun fv _ => Keeps.ite ((seqM_keeps (evals_keeps args h.2)).bind fun vs hvs =>
        evalCall_keeps hd hvs) Keeps.throw
  | .tern c t f, h => (eval_keeps c h.1).bind fun v _ => Keeps.ite (eval_keeps t h.2.1) (eval_keeps f h.2.2)
  | .not e, h => (eval_keeps e h).bind fun v _ => keeps_bool _
  | .neg e, h => (eval_keeps e h).bind fun v hv => keeps_flat fun w hw => opNeg_flat hw
theorem evals_keeps {dc : DecCtx} : ∀ es : List Expr, Expr.FlatList es →
    ∀ m ∈ evals env dc thing es, Keeps.Val env.utcoffset m
  | [], _ => by simp [evals]
  | e :: es, h => by
    intro m hm
    rcases List.mem_cons.1 hm with rfl | hm
    · exact eval_keeps e h.1
    · exact evals_keeps es h.2 m hm
theorem evalPairs_keeps {dc : DecCtx} : ∀ es : List (Expr × Expr), Expr.FlatPairs es →
    ∀ p ∈ evalPairs env dc thing es, Keeps.Val env.utcoffset p.1 ∧ Keeps.Val env.utcoffset p.2
  | [], _ => by simp [evalPairs]
  | (k, v) :: es, h => by
    intro m hm
    rcases List.mem_cons.1 hm with rfl | hm
    · exact ⟨eval_keeps k h.1, eval_keeps v h.2.1⟩
    · exact evalPairs_keeps es h.2.2 m hm
end
end

theorem coerce_flat {off : TzDb} {v : Value} (h : v.isFlat = true) : (coerce off v).isFlat = true := by
  cases v <;> simp [Value.isFlat] at h <;> rfl

mutual
theorem ofValue_flat (off : TzDb) : ∀ v : Value, (Expr.ofValue off v).FlatLits
  | .seq _ xs => ofValues_flat off xs
  | .set xs => ofValues_flat off xs
  | .map _ kvs => ofPairs_flat off kvs
  | .none | .bool _ | .int _ | .float _ | .dec _ | .str _ | .bytes _ | .date _ | .datetime .. | .timedelta _
  | .builtinFn _ | .userFn _ | .method .. | .obj _ | .undef => rfl
theorem ofValues_flat (off : TzDb) : ∀ xs : List Value, Expr.FlatList (Expr.ofValues off xs)
  | [] => trivial
  | x :: xs => ⟨ofValue_flat off x, ofValues_flat off xs⟩
theorem ofPairs_flat (off : TzDb) : ∀ xs : List (Value × Value), Expr.FlatPairs (Expr.ofPairs off xs)
  | [] => trivial
  | (k, v) :: xs => ⟨ofValue_flat off k, ofValue_flat off v, ofPairs_flat off xs⟩
end

theorem folds_flat {env : Env} {dct : DecCtx} {Γ : List Assignment} {node e : Expr}
    (h : Folds env dct Γ node e) : e.FlatLits := by
  obtain ⟨v, -, hl⟩ := h
  simp only [litOf, except_bind_ok, Except.ok.injEq] at hl
  obtain ⟨t, -, rfl⟩ := hl
  exact ofValue_flat _ _

mutual
/-- construction leaves no collections in literals -/
theorem built_flat {env : Env} {dct : DecCtx} : ∀ (raw : Raw) {Γ : List Assignment} {e : Expr}, raw.Plain →
    Built env dct Γ raw e → e.FlatLits
  | .lit v, Γ, e, hp, hb => by
    simp only [Built] at hb
    obtain ⟨t, -, rfl⟩ := hb
    simp only [Raw.Plain] at hp
    cases v <;> simp [Value.isToken] at hp <;> rfl
  | .floatLit x, Γ, e, hp, hb => by simp only [Built] at hb; obtain ⟨d, -, rfl⟩ := hb; rfl
  | .datetimeLit x, Γ, e, hp, hb => by
    simp only [Built] at hb
    obtain ⟨d, hd, rfl⟩ := hb
    unfold parseDatetime at hd
    split at hd <;> cases hd <;> rfl
  | .timedeltaLit x, Γ, e, hp, hb => by simp only [Built] at hb; obtain ⟨d, -, rfl⟩ := hb; rfl
  | .array xs, Γ, e, hp, hb => by simp only [Built] at hb; obtain ⟨es, hes, rfl⟩ := hb; exact builts_flat xs hp hes
  | .set xs, Γ, e, hp, hb => by simp only [Built] at hb; obtain ⟨es, hes, rfl⟩ := hb; exact builts_flat xs hp hes
  | .mapping kvs, Γ, e, hp, hb => by
    simp only [Built] at hb; obtain ⟨es, hes, -, rfl⟩ := hb; exact builtp_flat kvs hp hes
  | .bin op l r, Γ, e, hp, hb => by
    simp only [Built] at hb
    obtain ⟨l', r', hl, hr, -, he⟩ := hb
    split at he
    · exact folds_flat he
    · rw [he]; exact ⟨built_flat l hp.1 hl, built_flat r hp.2 hr⟩
  | .comp r var it c, Γ, e, hp, hb => by
    simp only [Built] at hb
    obtain ⟨it', t, c', r', hit, -, hc, hr, rfl⟩ := hb
    exact ⟨built_flat r hp.1 hr, built_flat it hp.2.1 hit, built_flat c hp.2.2 hc⟩
  | .contains c m, Γ, e, hp, hb => by
    simp only [Built] at hb
    obtain ⟨c', m', hc, hm, -, he⟩ := hb
    split at he
    · obtain ⟨v, ⟨s, s', -, hv⟩, rfl⟩ := he
      simp only [eval, M.bind_eq_ok, M.pure_eq_ok] at hv
      obtain ⟨_, _, _, _, _, _, _, _, _, _, _, _, rfl, _⟩ := hv
      rfl
    · rw [he]; exact ⟨built_flat c hp.1 hc, built_flat m hp.2 hm⟩
  | .getAttr o name safe, Γ, e, hp, hb => by
    simp only [Built] at hb
    obtain ⟨o', ho, -, he⟩ := hb
    split at he
    · obtain ⟨e', hf, rfl⟩ := he
      have := folds_flat hf
      unfold attrLit
      split
      · split <;> exact this
      · exact this
    · rw [he]; exact (built_flat o hp ho : o'.FlatLits)
  | .getItem c i safe, Γ, e, hp, hb => by
    simp only [Built] at hb
    obtain ⟨c', i', hc, hi, -, he⟩ := hb
    split at he
    · rw [he]; rfl
    split at he
    · exact folds_flat he
    · rw [he]; exact ⟨built_flat c hp.1 hc, built_flat i hp.2 hi⟩
  | .getSlice c a b safe, Γ, e, hp, hb => by
    simp only [Built] at hb
    obtain ⟨c', a', b', hc, ha, hb', -, he⟩ := hb
    split at he
    · exact folds_flat he
    · rw [he]; exact ⟨built_flat c hp.1 hc, built_flat a hp.2.1 ha, built_flat b hp.2.2 hb'⟩
  | .sym name b, Γ, e, hp, hb => by simp only [Built] at hb; obtain ⟨t, -, rfl⟩ := hb; trivial
  | .call f args, Γ, e, hp, hb => by
    simp only [Built] at hb
    obtain ⟨f', as, hf, has, -, he⟩ := hb
    split at he
    · exact folds_flat he
    · rw [he]; exact ⟨built_flat f hp.1 hf, builts_flat args hp.2 has⟩
  | .tern c t f, Γ, e, hp, hb => by
    simp only [Built] at hb
    obtain ⟨c', t', f', hc, ht, hf, rfl⟩ := hb
    have h1 := built_flat c hp.1 hc
    have h2 := built_flat t hp.2.1 ht
    have h3 := built_flat f hp.2.2 hf
    unfold mkTern
    split
    · split <;> assumption
    · exact ⟨h1, h2, h3⟩
  | .not x, Γ, e, hp, hb => by
    simp only [Built] at hb
    obtain ⟨x', hx, he⟩ := hb
    split at he
    · obtain ⟨v, ⟨s, s', -, hv⟩, rfl⟩ := he
      simp only [eval, M.bind_eq_ok, M.pure_eq_ok] at hv
      obtain ⟨_, _, _, rfl, _⟩ := hv
      rfl
    · rw [he]; exact (built_flat x hp hx : x'.FlatLits)
  | .neg x, Γ, e, hp, hb => by
    simp only [Built] at hb
    obtain ⟨x', hx, he⟩ := hb
    have h1 := built_flat x hp hx
    split at he
    · obtain ⟨w, v, t, rfl, -, ⟨s, s', -, hv⟩, rfl⟩ := he
      simp only [eval, M.bind_eq_ok, M.lift_eq_ok] at hv
      obtain ⟨_, _, _, hv, _⟩ := hv
      exact opNeg_flat hv
    · rw [he]; exact h1
theorem builts_flat {env : Env} {dct : DecCtx} : ∀ (raws : List Raw) {Γ : List Assignment} {es : List Expr},
    Raw.PlainList raws → BuiltList env dct Γ raws es → Expr.FlatList es
  | [], Γ, es, hp, hb => by simp only [BuiltList] at hb; subst hb; trivial
  | x :: xs, Γ, es, hp, hb => by
    simp only [BuiltList] at hb
    obtain ⟨e, es', he, hes, rfl⟩ := hb
    exact ⟨built_flat x hp.1 he, builts_flat xs hp.2 hes⟩
theorem builtp_flat {env : Env} {dct : DecCtx} : ∀ (raws : List (Raw × Raw)) {Γ : List Assignment}
    {es : List (Expr × Expr)}, Raw.PlainPairs raws → BuiltPairs env dct Γ raws es → Expr.FlatPairs es
  | [], Γ, es, hp, hb => by simp only [BuiltPairs] at hb; subst hb; trivial
  | (k, v) :: xs, Γ, es, hp, hb => by
    simp only [BuiltPairs] at hb
    obtain ⟨k', v', es', hk, hv, hes, rfl⟩ := hb
    exact ⟨built_flat k hp.1 hk, built_flat v hp.2.1 hv, builtp_flat xs hp.2.2 hes⟩
end

/-! ### Plain dictionaries and equality -/

mutual
theorem noDict_of_hash {off : TzDb} : ∀ v : Value, v.WF off → v.hashable = true → v.NoDict
  | .seq k xs, hw, h => by
    have hh := hashable_members hw h
    exact noDicts_of_hash xs hw.1 hh
  | .set _, _, h => by simp [Value.hashable] at h
  | .map .., _, h => by simp [Value.hashable] at h
  | .none, _, _ | .bool _, _, _ | .int _, _, _ | .float _, _, _ | .dec _, _, _ | .str _, _, _ | .bytes _, _, _
  | .date _, _, _ | .datetime .., _, _ | .timedelta _, _, _ | .builtinFn _, _, _ | .userFn _, _, _ | .method .., _, _
  | .obj _, _, _ | .undef, _, _ => trivial
theorem noDicts_of_hash {off : TzDb} : ∀ xs : List Value, Value.AllWF off xs → Value.allHashable xs = true →
    Value.AllNoDict xs
  | [], _, _ => trivial
  | x :: xs, hw, h => by
    simp only [Value.allHashable, Bool.and_eq_true] at h
    exact ⟨noDict_of_hash x hw.1 h.1, noDicts_of_hash xs hw.2 h.2⟩
end

mutual
/-- the mappings in values as the engine makes them are ordered, at every level (the members of sets, which are not coerced,
are hashable, so contain none) -/
theorem noDict_of_normal {off : TzDb} : ∀ v : Value, v.WF off → v.Normal → v.NoDict
  | .seq k xs, hw, h => noDicts_of_normal xs hw.1 h.2
  | .set xs, hw, h => allNoDict_iff.2 fun x hx => noDict_of_hash x (allWF_iff.1 hw.1 x hx) (hw.2.1 x hx)
  | .map k kvs, hw, h => ⟨h.1, noDictp_of_normal kvs hw.1 h.2⟩
  | .none, _, _ | .bool _, _, _ | .int _, _, _ | .float _, _, _ | .dec _, _, _ | .str _, _, _ | .bytes _, _, _
  | .date _, _, _ | .datetime .., _, _ | .timedelta _, _, _ | .builtinFn _, _, _ | .userFn _, _, _ | .method .., _, _
  | .obj _, _, _ | .undef, _, _ => trivial
theorem noDicts_of_normal {off : TzDb} : ∀ xs : List Value, Value.AllWF off xs → Value.AllNormal xs →
    Value.AllNoDict xs
  | [], _, _ => trivial
  | x :: xs, hw, h => ⟨noDict_of_normal x hw.1 h.1, noDicts_of_normal xs hw.2 h.2⟩
theorem noDictp_of_normal {off : TzDb} : ∀ xs : List (Value × Value), Value.PairsWF off xs → Value.PairsNormal xs →
    Value.PairsNoDict xs
  | [], _, _ => trivial
  | (k, v) :: xs, hw, h => ⟨noDict_of_normal k hw.1 h.1, noDict_of_normal v hw.2.1 h.2.1, noDictp_of_normal xs hw.2.2 h.2.2⟩
end

mutual
/-- of two equal values both or none can be members of sets -/
theorem equal_hashable {off : TzDb} : ∀ a b : Value, pyEq off a b = true → a.hashable = b.hashable
  | .seq k xs, b, h => by
    cases b <;> simp only [pyEq, Bool.and_eq_true, beq_iff_eq, reduceCtorEq, Bool.false_eq_true] at h
    obtain ⟨rfl, h⟩ := h
    cases k <;> simp only [Value.hashable]
    exact equals_hashable xs _ h
  | .none, b, h | .str _, b, h | .bytes _, b, h | .date _, b, h | .timedelta _, b, h | .builtinFn _, b, h
  | .userFn _, b, h | .obj _, b, h | .undef, b, h | .bool _, b, h | .int _, b, h | .float _, b, h | .dec _, b, h
  | .method .., b, h | .datetime .., b, h | .set _, b, h | .map .., b, h => by
    cases b <;> first | rfl | simp [pyEq, Value.asNumber] at h
theorem equals_hashable {off : TzDb} : ∀ xs ys : List Value, pyEqSeq off xs ys = true →
    Value.allHashable xs = Value.allHashable ys
  | [], [], _ => rfl
  | [], _ :: _, h => by simp [pyEqSeq] at h
  | _ :: _, [], h => by simp [pyEqSeq] at h
  | x :: xs, y :: ys, h => by
    simp only [pyEqSeq, Bool.and_eq_true] at h
    simp only [Value.allHashable, equal_hashable x y h.1, equals_hashable xs ys h.2]
end

/-! ### Rules -/

/-- **C74.** Sets in what a rule gives have hashable, pairwise unequal members, mappings have hashable, pairwise unequal
keys, at every level, whatever the text of the rule, when the data the program provides are so; and there are no plain
dictionaries. -/
theorem result_wf {env : Env} {thing : Value} (hd : env.DataOk) (ht : thing.WF env.utcoffset) {codec : LitCodec}
    {dct : DecCtx} {text : String} {p q : Proc} {e : Expr} {v : Value} (h : (p.rule codec env dct text).1 = .ok e)
    (hv : (q.evaluate env e thing).1 = .ok v) : v.WF env.utcoffset ∧ v.NoDict := by
  have h' : parseRule codec env dct p.line text p.st = (.ok e, (parseRule codec env dct p.line text p.st).2) := by
    rw [← h]; rfl
  obtain ⟨raw, _, -, hp, hc⟩ := parseRule_ok h'
  have hf := built_flat raw hp (build_built raw hc)
  have hw := ((eval_keeps hd ht (dc := env.decCtx) e hf).out q.st.reset ⟨by simp [St.reset], by simp [St.reset, Value.WF]⟩).1 v hv
  exact ⟨hw, noDict_of_normal v hw (result_normal env dct raw hp _ _ e hc thing q.st _ v
    (show ruleEval env e thing q.st = (.ok v, (ruleEval env e thing q.st).2) by rw [← hv]; rfl))⟩

/-- **C74.** In particular, a set a rule gives has no two equal members. -/
theorem result_set {env : Env} {thing : Value} (hd : env.DataOk) (ht : thing.WF env.utcoffset) {codec : LitCodec}
    {dct : DecCtx} {text : String} {p q : Proc} {e : Expr} {xs : List Value} (h : (p.rule codec env dct text).1 = .ok e)
    (hv : (q.evaluate env e thing).1 = .ok (.set xs)) :
    xs.Pairwise (fun a b => pyEq env.utcoffset a b = false) ∧ ∀ x ∈ xs, x.hashable = true :=
  ⟨(result_wf hd ht h hv).1.2.2, (result_wf hd ht h hv).1.2.1⟩

/-- **C74.** And a mapping has no two equal keys. -/
theorem result_mapping {env : Env} {thing : Value} (hd : env.DataOk) (ht : thing.WF env.utcoffset) {codec : LitCodec}
    {dct : DecCtx} {text : String} {p q : Proc} {e : Expr} {k : MapKind} {kvs : List (Value × Value)}
    (h : (p.rule codec env dct text).1 = .ok e) (hv : (q.evaluate env e thing).1 = .ok (.map k kvs)) :
    k = .ordered ∧ kvs.Pairwise (fun a b => pyEq env.utcoffset a.1 b.1 = false) ∧ ∀ p ∈ kvs, p.1.hashable = true :=
  ⟨(result_wf hd ht h hv).2.1, (result_wf hd ht h hv).1.2.2, (result_wf hd ht h hv).1.2.1⟩

section
variable {codec : LitCodec} {env : Env} {thing : Value} {p : Proc} {a b c m : List Char} {x y z : Except Err Value}
variable (hd : env.DataOk) (ht : thing.WF env.utcoffset)
include hd ht

theorem Outcome.wf {v : Value} (h : Outcome codec env thing p a (.ok v)) : v.WF env.utcoffset ∧ v.NoDict := by
  obtain ⟨e, ⟨-, acts, he⟩, hv⟩ := h
  exact result_wf hd ht he hv

/-- **C74.** With such data, exchanging the sides of a comparison (and turning it round) gives the same, with no condition
on the values. -/
theorem sides_exchanged {k k' : Kind} (hk : (k, k') ∈ exchanged) (htz : TzOk env.utcoffset) {v w : Value}
    (ha : Outcome codec env thing p a (.ok v)) (hb : Outcome codec env thing p b (.ok w)) (hga : NoGroups codec a)
    (hgb : NoGroups codec b) (h : Outcome codec env thing p (binText a k b) x)
    (h' : Outcome codec env thing p (binText b k' a) y) : x = y :=
  compare_exchanged hk htz ha hb hga hgb (ha.wf hd ht).1 (hb.wf hd ht).1 h h'

omit hd ht in
/-- **C74.** `(a) == (a)` is true, unless there is a NaN in the value. -/
theorem equal_itself {v : Value} (ha : Outcome codec env thing p a (.ok v)) (hn : v.NoNaN) (hg : NoGroups codec a)
    (h : Outcome codec env thing p (binText a .EQ a) x) : x = .ok (.bool true) := by
  rw [ha.values (by decide) ha hg h]
  exact eq_reflexive env _ v hn

omit hd ht in
/-- two rules that are equal by `==` -/
theorem equal_values {v w : Value} (ha : Outcome codec env thing p a (.ok v)) (hb : Outcome codec env thing p b (.ok w))
    (hgb : NoGroups codec b) (h : Outcome codec env thing p (binText a .EQ b) (.ok (.bool true))) :
    v.pyType = w.pyType ∧ pyEq env.utcoffset v w = true := by
  have := ha.values (by decide) hb hgb h
  simp only [meaning, binResult_eq, opEq, Except.ok.injEq, Value.bool.injEq] at this
  split at this
  · exact ⟨‹_›, this.symm⟩
  · cases this

theorem equal_alike {v w u : Value} (htz : TzOk env.utcoffset) (hv : v.WF env.utcoffset ∧ v.NoDict)
    (hw : w.WF env.utcoffset ∧ w.NoDict) (h : pyEq env.utcoffset v w = true) :
    pyEq env.utcoffset u v = pyEq env.utcoffset u w := by
  rw [Bool.eq_iff_iff]
  exact ⟨fun h' => pyEq_trans htz u v w hv.2 h' h,
    fun h' => pyEq_trans htz u w v hw.2 h' (pyEq_symm htz v w hv.1 h)⟩

/-- **C74.** When `(a) == (b)` is true, `(c) == (a)` and `(c) == (b)` give the same. -/
theorem equal_in_equality (htz : TzOk env.utcoffset) {u v w : Value} (ha : Outcome codec env thing p a (.ok v))
    (hb : Outcome codec env thing p b (.ok w)) (hc : Outcome codec env thing p c (.ok u)) (hga : NoGroups codec a)
    (hgb : NoGroups codec b) (heq : Outcome codec env thing p (binText a .EQ b) (.ok (.bool true)))
    (h : Outcome codec env thing p (binText c .EQ a) x) (h' : Outcome codec env thing p (binText c .EQ b) y) : x = y := by
  obtain ⟨h1, h2⟩ := equal_values ha hb hgb heq
  rw [hc.values (by decide) ha hga h, hc.values (by decide) hb hgb h']
  simp only [meaning, binResult_eq, opEq, h1, equal_alike hd ht htz (ha.wf hd ht) (hb.wf hd ht) h2 (u := u)]

theorem pyIn_alike (htz : TzOk env.utcoffset) {v w u : Value} {xs : List Value} (hv : v.WF env.utcoffset ∧ v.NoDict)
    (hw : w.WF env.utcoffset ∧ w.NoDict) (h1 : v.pyType = w.pyType) (h2 : pyEq env.utcoffset v w = true)
    (hu : u.elements = some xs) : pyIn env.utcoffset v u = pyIn env.utcoffset w u := by
  have hh := equal_hashable v w h2
  have he := fun u => equal_alike hd ht htz hv hw h2 (u := u)
  cases u with
  | seq k ys => simp only [pyIn, he]
  | map k kvs => simp only [pyIn, he, hh]
  | set ys =>
    by_cases hs : ∃ zs, v = .set zs
    · obtain ⟨zs, rfl⟩ := hs
      cases w <;> simp [pyEq] at h2
      rfl
    · have hs' : ¬ ∃ zs, w = .set zs := by
        rintro ⟨zs, rfl⟩
        cases v <;> simp [pyEq, Value.asNumber] at h2
        exact hs ⟨_, rfl⟩
      have : ∀ {q : Value}, (¬ ∃ zs, q = .set zs) → pyIn env.utcoffset q (.set ys) =
          if q.hashable then .ok (ys.any fun x => pyEq env.utcoffset x q) else .error .typeError := by
        intro q hq
        cases q <;> first | rfl | exact (hq ⟨_, rfl⟩).elim
      rw [this hs, this hs', hh]
      simp only [he]
  | _ => simp [Value.elements] at hu

/-- **C74.** When `(a) == (b)` is true, `(a) in (c)` and `(b) in (c)` give the same, for an array, set or mapping `c`: the same
truth value, or the same exception. -/
theorem equal_in_collection (htz : TzOk env.utcoffset) {u v w : Value} {xs : List Value}
    (ha : Outcome codec env thing p a (.ok v)) (hb : Outcome codec env thing p b (.ok w))
    (hc : Outcome codec env thing p c (.ok u)) (hu : u.elements = some xs) (hga : NoGroups codec a) (hgb : NoGroups codec b)
    (heq : Outcome codec env thing p (binText a .EQ b) (.ok (.bool true)))
    (h : Outcome codec env thing p (inText a c) x) (h' : Outcome codec env thing p (inText b c) y) : x = y := by
  obtain ⟨h1, h2⟩ := equal_values ha hb hgb heq
  rw [ha.contains hc hga h, hb.contains hc hgb h', ← containsOn_values, ← containsOn_values]
  have hi := pyIn_alike hd ht htz (ha.wf hd ht) (hb.wf hd ht) h1 h2 hu
  have ho : ∀ {t}, fromValue u = .ok t → opContains env.utcoffset t u v = opContains env.utcoffset t u w := by
    intro t htt
    have : (DataType.eq t .bytes || DataType.eq t .string) = false := by
      have hk := fromValue_kind u t htt
      cases u <;> simp [Value.elements] at hu <;> (try (rename_i k _; cases k)) <;>
        cases t <;> simp_all [DataType.eq, DataType.kind, pyTypeKind, Value.pyType]
    simp only [opContains, this, hi]
    rfl
  simp only [containsOn, bind, Except.bind]
  cases htt : fromValue u with
  | error e => rfl
  | ok t => simp only [ho htt]

/-- The text `(c)[a]`, or `(c)&[a]`. -/
def itemText (c : List Char) (safe : Bool) (a : List Char) : List Char :=
  par c ++ ((if safe then "&[" else "[").toList ++ (a ++ [']']))

omit hd ht in
theorem Outcome.normal {v : Value} (h : Outcome codec env thing p a (.ok v)) : v.Normal := by
  obtain ⟨e, ⟨-, acts, he⟩, hv⟩ := h
  obtain ⟨raw, _, -, hp, hc⟩ := parseRule_ok (s1 := _) (Prod.ext he rfl)
  exact result_normal env env.decCtx raw hp _ _ e hc thing p.st _ v (Prod.ext hv rfl)

omit hd ht in
theorem equal_whole {d d' : Dec} (h : decEq d d' = true) (z : Int) : d.isWhole z ↔ d'.isWhole z := by
  obtain ⟨q, h1, h2⟩ := (decEq_iff d d').1 h
  have : d.num = d'.num := by
    cases d with
    | nan => simp [Dec.key] at h1
    | inf s =>
      cases d' with
      | nan => simp [Dec.key] at h2
      | inf s' => rfl
      | fin n k e => cases s <;> simp [Dec.key] at h1 h2 <;> (subst h1; simp at h2)
    | fin n k e =>
      cases d' with
      | nan => simp [Dec.key] at h2
      | inf s' => cases s' <;> simp [Dec.key] at h1 h2 <;> (subst h1; simp at h2)
      | fin n' k' e' =>
        simp only [Dec.key, Option.some.injEq] at h1 h2
        subst h1
        simp only [Prod.mk.injEq, true_and] at h2
        simp [Dec.num, h2]
  simp [Dec.isWhole, this]

omit hd ht in
/-- equal values are the same index -/
theorem equal_index {off : TzDb} {v w : Value} (hv : v.Normal) (h1 : v.pyType = w.pyType) (h2 : pyEq off v w = true) :
    (assertInteger v = .ok () ∧ assertInteger w = .ok () ∧ toInt v = toInt w) ∨
      ∃ e, assertInteger v = .error e ∧ assertInteger w = .error e := by
  cases v with
  | dec d =>
    obtain ⟨d', rfl⟩ : ∃ d', w = .dec d' := by
      cases w <;> first | exact ⟨_, rfl⟩ | (simp [Value.pyType] at h1; done) | (simp [pyEq, Value.asNumber] at h2; done)
    simp only [pyEq, Value.asNumber] at h2
    have hw := equal_whole h2
    obtain ⟨q, e1, i1⟩ := isInteger_dec d
    obtain ⟨q', e2, i2⟩ := isInteger_dec d'
    have hq : q = q' := by
      rw [Bool.eq_iff_iff, i1, i2]
      exact ⟨fun ⟨z, hz⟩ => ⟨z, (hw z).1 hz⟩, fun ⟨z, hz⟩ => ⟨z, (hw z).2 hz⟩⟩
    subst hq
    simp only [assertInteger, e1, e2, except_ok_bind]
    cases q with
    | false => exact .inr ⟨_, rfl, rfl⟩
    | true =>
      obtain ⟨z, hz⟩ := i1.1 rfl
      exact .inl ⟨rfl, rfl, by rw [toInt_whole hz, toInt_whole ((hw z).1 hz)]⟩
  | int _ => exact hv.elim
  | float _ => exact hv.elim
  | bool q =>
    cases w <;> simp [pyEq, Value.asNumber] at h2 <;>
      first
        | (simp [Value.pyType] at h1; done)
        | exact .inr ⟨_, rfl, rfl⟩
  | _ => cases w <;> first | (simp [pyEq, Value.asNumber] at h2; done) | exact .inr ⟨_, rfl, rfl⟩

/-- **C74.** When `(a) == (b)` is true, `(c)[a]` and `(c)[b]` give the same: the same value, or the same exception. -/
theorem equal_items (htz : TzOk env.utcoffset) {v w : Value} (ha : Outcome codec env thing p a (.ok v))
    (hb : Outcome codec env thing p b (.ok w)) (hc : Outcome codec env thing p c z) (hga : NoGroups codec a)
    (hgb : NoGroups codec b) (heq : Outcome codec env thing p (binText a .EQ b) (.ok (.bool true)))
    (h : Outcome codec env thing p (itemText c false a) x) (h' : Outcome codec env thing p (itemText c false b) y) : x = y := by
  obtain ⟨h1, h2⟩ := equal_values ha hb hgb heq
  have he := fun u => equal_alike hd ht htz (ha.wf hd ht) (hb.wf hd ht) h2 (u := u)
  have hh := equal_hashable v w h2
  have hi := equal_index ha.normal h1 h2
  have hn := ha.normal
  have hn' := hb.normal
  obtain ⟨l, hl, h3⟩ := ha
  obtain ⟨r, hr, h4⟩ := hb
  obtain ⟨d, hdp, rfl⟩ := id hc
  obtain ⟨e, hep, rfl⟩ := h
  obtain ⟨e', hep', rfl⟩ := h'
  obtain ⟨acts, ho⟩ := hep.outcome
  obtain ⟨acts', ho'⟩ := hep'.outcome
  rw [item_of_rules hdp hl hga false (notSafe_noMiss _ _) acts ho, item_of_rules hdp hr hgb false (notSafe_noMiss _ _) acts' ho',
    h3, h4]
  cases hu : (p.evaluate env d thing).1 with
  | error err => rfl
  | ok u =>
    rw [hu] at hc
    have hg : opGetItem env.utcoffset u v = opGetItem env.utcoffset u w := by
      have hun := hc.normal
      unfold opGetItem
      cases u with
      | map k kvs => simp only [itemCheck, pyGetItem, hh, mapLookup, he]
      | seq k xs =>
        obtain ⟨rfl, -⟩ := hun
        rcases hi with ⟨i1, i2, i3⟩ | ⟨err, i1, i2⟩ <;> simp only [itemCheck, pyGetItem, i1, i2] <;> first | rw [i3] | rfl
      | str _ | bytes _ =>
        rcases hi with ⟨i1, i2, i3⟩ | ⟨err, i1, i2⟩ <;> simp only [itemCheck, pyGetItem, i1, i2] <;> first | rw [i3] | rfl
      | _ => rfl
    simp only [itemOn, hg, bind, Except.bind]

/-- **C74.** With such data, `(m) in ((a) | (b))` gives the same as `((m) in (a)) or ((m) in (b))`, and so for `&` with `and`
and `^` with `!=`. -/
theorem in_combination {k : Kind} (hk : k ∈ [Kind.BWAND, .BWOR, .BWXOR]) (htz : TzOk env.utcoffset) {v : Value}
    {xs ys : List Value} (hm : Outcome codec env thing p m (.ok v)) (ha : Outcome codec env thing p a (.ok (.set xs)))
    (hb : Outcome codec env thing p b (.ok (.set ys))) (hgm : NoGroups codec m) (hga : NoGroups codec a)
    (hgb : NoGroups codec b) (hv : v.hashable = true) (htx : ∃ t, fromValue (.set xs) = .ok t)
    (hty : ∃ t, fromValue (.set ys) = .ok t) (h : Outcome codec env thing p (inText m (binText a k b)) x)
    (h' : Outcome codec env thing p (binText (inText m a) (connective k) (inText m b)) y) :
    x = y ∧ ∃ q, x = .ok (.bool q) :=
  in_combined hk htz hm ha hb hgm hga hgb hv (ha.wf hd ht).1 (hb.wf hd ht).1 htx hty h h'
end

/-! ### The hypotheses are met -/

theorem resolveItem_wf {off : TzDb} {o v : Value} {name : String} (ho : o.WF off) (h : resolveItem off o name = .ok v) :
    v.WF off := by
  cases o with
  | map k kvs =>
    simp only [resolveItem] at h
    split at h
    · cases h
      rename_i hl
      simp only [mapLookup, Option.map_eq_some_iff] at hl
      obtain ⟨q, hq, rfl⟩ := hl
      exact (pairsWF_iff.1 ho.1 q (List.mem_of_find?_eq_some hq)).2
    · split at h <;> cases h
  | _ => simp [resolveItem] at h

/-- the sample environment, which looks names up in a dictionary, is one -/
theorem sampleEnv_data : sampleEnv.DataOk where
  resolver := fun o name v ho h => resolveItem_wf ho h
  functions := fun n args v ha h => by
    simp only [sampleEnv] at h
    split at h <;> cases h
    · exact ha _ (by simp)
    · trivial
    · trivial
  default := fun v h => by cases h
  random := fun n => trivial

/-- a dictionary of data: two equal texts, a dictionary and a set -/
def fourNames : Value := dictOf [("x", .str "ab"), ("y", .str "ab"), ("z", .map .dict [(.str "ab", .seq .list [.str "q"])]),
  ("s", .set [.str "c", .str "ab"])]

theorem fourNames_wf : fourNames.WF sampleEnv.utcoffset := by
  have h : ∀ (off : TzDb) (a b : String), pyEq off (.str a) (.str b) = (a == b) := fun _ _ _ => by simp only [pyEq]
  simp [fourNames, dictOf, Value.WF, Value.PairsWF, Value.AllWF, h, Value.hashable]

example (codec : LitCodec) :
    Outcome codec sampleEnv fourNames Proc.new ['x'] (.ok (.str "ab")) ∧
    Outcome codec sampleEnv fourNames Proc.new ['y'] (.ok (.str "ab")) ∧
    Outcome codec sampleEnv fourNames Proc.new ['z'] (.ok (.map .ordered [(.str "ab", .tuple [.str "q"])])) ∧
    Outcome codec sampleEnv fourNames Proc.new (binText ['x'] .EQ ['y']) (.ok (.bool true)) ∧
    Outcome codec sampleEnv fourNames Proc.new (inText ['x'] ['z']) (.ok (.bool true)) ∧
    Outcome codec sampleEnv fourNames Proc.new (inText ['y'] ['z']) (.ok (.bool true)) ∧
    Outcome codec sampleEnv fourNames Proc.new (itemText ['z'] false ['x']) (.ok (.tuple [.str "q"])) ∧
    Outcome codec sampleEnv fourNames Proc.new (itemText ['z'] false ['y']) (.ok (.tuple [.str "q"])) ∧
    NoGroups codec ['x'] ∧ NoGroups codec ['y'] := by
  have hx : Means codec ['x'] (.sym "x" false) := means_sym x_word
  have hy : Means codec ['y'] (.sym "y" false) := means_sym y_word
  have hz : Means codec ['z'] (.sym "z" false) := means_sym z_word
  have h1 := means_bin hx hy .EQ (by decide)
  have h2 := means_in hx hz
  have h3 := means_in hy hz
  have h4 := means_item hz hx false
  have h5 := means_item hz hy false
  exact ⟨⟨_, ⟨⟨_, hx⟩, [], (rule_of_means hx).trans rfl⟩, by decide +kernel⟩,
    ⟨_, ⟨⟨_, hy⟩, [], (rule_of_means hy).trans rfl⟩, by decide +kernel⟩,
    ⟨_, ⟨⟨_, hz⟩, [], (rule_of_means hz).trans rfl⟩, by decide +kernel⟩,
    ⟨_, ⟨⟨_, h1⟩, [], (rule_of_means h1).trans rfl⟩, by decide +kernel⟩,
    ⟨_, ⟨⟨_, h2⟩, [], (rule_of_means h2).trans rfl⟩, by decide +kernel⟩,
    ⟨_, ⟨⟨_, h3⟩, [], (rule_of_means h3).trans rfl⟩, by decide +kernel⟩,
    ⟨_, ⟨⟨_, h4⟩, [], (rule_of_means h4).trans rfl⟩, by decide +kernel⟩,
    ⟨_, ⟨⟨_, h5⟩, [], (rule_of_means h5).trans rfl⟩, by decide +kernel⟩,
    ⟨_, hx, by simp [Raw.uses]⟩, ⟨_, hy, by simp [Raw.uses]⟩⟩

/-- with data that no Python program can have, a rule gives a set with two equal members -/
example : runRaw sampleEnv (.sym "s" false) (dictOf [("s", .set [.str "a", .str "a"])]) =
    .ok (.set [.str "a", .str "a"]) := by decide +kernel

end RE
