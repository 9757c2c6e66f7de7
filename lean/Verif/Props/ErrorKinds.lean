import Verif.Props.NameErrors

/-!
# Which engine errors a rule can raise (C66)
-/

set_option linter.unusedSimpArgs false
set_option linter.unusedVariables false
set_option linter.unusedSectionVars false
set_option linter.unnecessarySeqFocus false

namespace RE

/-- the engine errors that the computation can end with are all in `K` -/
structure Only (K : EngErr → Prop) {α : Type} (x : Except Err α) : Prop where
  out : ∀ k, x = .error (.eng k) → K k

section
variable {K : EngErr → Prop}

theorem Only.ok {α : Type} (a : α) : Only K (.ok a : Except Err α) := ⟨fun e h => by cases h⟩
theorem Only.err {α : Type} {e : Err} (h : ∀ k, e = .eng k → K k) : Only K (.error e : Except Err α) :=
  ⟨fun k h' => h k (by cases h'; rfl)⟩
theorem Only.bind {α β : Type} {x : Except Err α} {f : α → Except Err β} (hx : Only K x) (hf : ∀ a, Only K (f a)) :
    Only K (x >>= f) := by
  cases x with
  | error e => exact ⟨fun k h => hx.out k (by cases h; rfl)⟩
  | ok a => exact hf a
theorem Only.ite {α : Type} {c : Prop} [Decidable c] {x y : Except Err α} (hx : Only K x) (hy : Only K y) :
    Only K (if c then x else y) := by split <;> assumption
theorem Only.map {α β : Type} {x : Except Err α} (f : α → β) (hx : Only K x) : Only K (x.map f) := by
  cases x with
  | error e => exact ⟨fun k h => hx.out k (by cases h; rfl)⟩
  | ok a => exact Only.ok _
theorem Only.ofDec {α : Type} (x : Except DecErr α) : Only K (x.mapError Err.ofDec) := by
  cases x with
  | error e => cases e <;> exact Only.err (fun k h => by cases h)
  | ok a => exact Only.ok _

theorem Only.mismatch {α : Type} (he : K .evaluation) : Only K (.error .mismatch : Except Err α) :=
  ⟨fun k h' => by cases h'; exact he⟩

/-- the steps that all these proofs consist of -/
macro "only" : tactic => `(tactic| repeat' (first
  | with_reducible assumption
  | with_reducible exact Only.ok _
  | ((with_reducible refine Only.err ?_); intro k hk; cases hk <;> assumption)
  | with_reducible exact Only.ofDec _
  | with_reducible refine Only.bind ?_ (fun _ => ?_)
  | with_reducible refine Only.map _ ?_
  | with_reducible refine Only.ite ?_ ?_
  | split))

mutual
theorem only_fromValue (hg : K .engine) : ∀ v : Value, Only K (fromValue v)
  | .set xs => by simp only [fromValue]; exact (only_typesOf hg xs).bind fun _ => Only.ok _
  | .seq _ xs => by simp only [fromValue]; exact (only_typesOf hg xs).bind fun _ => Only.ok _
  | .map _ kvs => by
    simp only [fromValue, mkMappingType]
    exact (only_typesOfKeys hg kvs).bind fun _ => (only_typesOfVals hg kvs).bind fun _ => by only
  | .none | .bool _ | .int _ | .float _ | .dec _ | .str _ | .bytes _ | .date _ | .datetime .. |
    .timedelta _ | .builtinFn _ | .userFn _ | .method .. | .obj _ | .undef => by
    simp only [fromValue]; only
theorem only_typesOf (hg : K .engine) : ∀ xs : List Value, Only K (typesOf xs)
  | [] => by simp only [typesOf]; only
  | x :: xs => by
    simp only [typesOf]
    exact (only_fromValue hg x).bind fun _ => (only_typesOf hg xs).bind fun _ => Only.ok _
theorem only_typesOfKeys (hg : K .engine) : ∀ xs : List (Value × Value), Only K (typesOfKeys xs)
  | [] => by simp only [typesOfKeys]; only
  | (k, v) :: xs => by
    simp only [typesOfKeys]
    exact (only_fromValue hg k).bind fun _ => (only_typesOfKeys hg xs).bind fun _ => Only.ok _
theorem only_typesOfVals (hg : K .engine) : ∀ xs : List (Value × Value), Only K (typesOfVals xs)
  | [] => by simp only [typesOfVals]; only
  | (k, v) :: xs => by
    simp only [typesOfVals]
    exact (only_fromValue hg v).bind fun _ => (only_typesOfVals hg xs).bind fun _ => Only.ok _
end

theorem only_isReal (v : Value) : Only K (isReal v) := by unfold isReal; only
theorem only_isInteger (v : Value) : Only K (isInteger v) := by
  unfold isInteger; have := only_isReal (K := K) v; only
theorem only_isNatural (v : Value) : Only K (isNatural v) := by
  unfold isNatural; have := only_isInteger (K := K) v; only
theorem only_assertInteger (he : K .evaluation) (v : Value) : Only K (assertInteger v) := by
  unfold assertInteger; have := only_isInteger (K := K) v; only
theorem only_assertNatural (he : K .evaluation) (v : Value) : Only K (assertNatural v) := by
  unfold assertNatural; have := only_isNatural (K := K) v; only
theorem only_assertNumeric (he : K .evaluation) (v : Value) : Only K (assertNumeric v) := by unfold assertNumeric; only
theorem only_coerceVerify (hg : K .engine) (off : TzDb) (v : Value) : Only K (coerceVerify off v) := by
  unfold coerceVerify; have := only_fromValue (K := K) hg (coerce off v); only

/-- Python's own arithmetic on ints and floats raises no engine errors. -/
def Env.PyArith (env : Env) : Prop := ∀ op a b k, env.rawArith op a b ≠ .error (.eng k)

section
variable {env : Env} (ha : env.PyArith)
include ha

theorem only_numOp (dc : DecCtx) (op : ArithOp) (a b : Value) : Only K (numOp env dc op a b) := by
  have h : ∀ op, Only K (env.rawArith op a b) := fun op => ⟨fun k hk => (ha op a b k hk).elim⟩
  unfold numOp
  split
  · only
  · split
    · split <;> first | exact (h _).map _ | only
    · split <;> first | exact (h _).map _ | only

theorem only_opAdd (he : K .evaluation) (dc : DecCtx) (a b : Value) : Only K (opAdd env dc a b) := by
  unfold opAdd
  refine Only.bind ?_ fun _ => ?_
  · have h1 := only_assertNumeric (K := K) he a
    have h2 := only_assertNumeric (K := K) he b
    unfold addCheck; only
  · unfold pyAdd mkDatetime mkTimedelta
    split <;> first | exact only_numOp ha _ _ _ _ | only

theorem only_opSub (he : K .evaluation) (dc : DecCtx) (a b : Value) : Only K (opSub env dc a b) := by
  unfold opSub
  refine Only.bind ?_ fun _ => ?_
  · have h1 := only_assertNumeric (K := K) he a
    have h2 := only_assertNumeric (K := K) he b
    unfold subCheck; only
  · unfold pySub mkDatetime mkTimedelta
    split <;> first | exact only_numOp ha _ _ _ _ | only

theorem only_opArith (he : K .evaluation) (dc : DecCtx) (op : ArithOp) (a b : Value) : Only K (opArith env dc op a b) := by
  have h := only_numOp (K := K) ha dc op a b
  unfold opArith
  split
  · only
  · rename_i e hx
    exact Only.ite (Only.mismatch he) (Only.err fun k hk => h.out k (by rw [hx, hk]))
end

theorem only_pyNeg (dc : DecCtx) (v : Value) : Only K (pyNeg dc v) := by unfold pyNeg mkTimedelta; only
theorem only_opNeg (he : K .evaluation) (dc : DecCtx) (v : Value) : Only K (opNeg dc v) := by
  unfold opNeg; have := only_pyNeg (K := K) dc v; only
theorem only_opBitNat (he : K .evaluation) (env : Env) (op : BitOp) (a b : Value) : Only K (opBitNat env op a b) := by
  unfold opBitNat; have := only_assertNatural (K := K) he b; only
theorem only_bitSet (off : TzDb) (op : BitOp) (xs ys : List Value) : Only K (bitSet off op xs ys) := by
  unfold bitSet; only
theorem only_opBitSet (hg : K .engine) (he : K .evaluation) (off : TzDb) (op : BitOp) (xs : List Value) (b : Value) : Only K (opBitSet off op xs b) := by
  unfold opBitSet
  refine (only_fromValue hg b).bind fun t => Only.ite ?_ (Only.mismatch he)
  split
  · exact (only_bitSet ..).bind fun _ => Only.ok _
  · only
theorem only_decCmpOp (op : CmpOp) (a b : Dec) : Only K (decCmpOp op a b) := by unfold decCmpOp; only
theorem only_pyCmp (off : TzDb) (op : CmpOp) (a b : Value) : Only K (pyCmp off op a b) := by
  unfold pyCmp
  split <;> first | exact only_decCmpOp _ _ _ | only
mutual
theorem only_opCmpValues (he : K .evaluation) (off : TzDb) : ∀ (a : Value) (op : CmpOp) (b : Value), Only K (opCmpValues off a op b)
  | .seq k xs, op, b => by
    have h := fun ys n m => only_opCmpArrays he off xs op ys n m
    have h2 : Only K (if (Value.seq k xs).pyType = b.pyType then pyCmp off op (.seq k xs) b else .error .mismatch) :=
      Only.ite (only_pyCmp ..) (Only.mismatch he)
    cases k <;> cases b <;> first
      | (rename_i k' ys; cases k' <;> simp only [opCmpValues] <;> first | exact h2 | exact h _ _ _)
      | (simp only [opCmpValues]; exact h2)
  | .none, op, b => by
    have h2 : Only K (if Value.none.pyType = b.pyType then pyCmp off op .none b else .error .mismatch) :=
      Only.ite (only_pyCmp ..) (Only.mismatch he)
    cases b <;> simp only [opCmpValues] <;> first | exact h2 | only
  | .bool x, op, b => by simp only [opCmpValues]; exact Only.ite (only_pyCmp ..) (Only.mismatch he)
  | .int x, op, b => by simp only [opCmpValues]; exact Only.ite (only_pyCmp ..) (Only.mismatch he)
  | .float x, op, b => by simp only [opCmpValues]; exact Only.ite (only_pyCmp ..) (Only.mismatch he)
  | .dec x, op, b => by simp only [opCmpValues]; exact Only.ite (only_pyCmp ..) (Only.mismatch he)
  | .str x, op, b => by simp only [opCmpValues]; exact Only.ite (only_pyCmp ..) (Only.mismatch he)
  | .bytes x, op, b => by simp only [opCmpValues]; exact Only.ite (only_pyCmp ..) (Only.mismatch he)
  | .date x, op, b => by simp only [opCmpValues]; exact Only.ite (only_pyCmp ..) (Only.mismatch he)
  | .datetime x y, op, b => by simp only [opCmpValues]; exact Only.ite (only_pyCmp ..) (Only.mismatch he)
  | .timedelta x, op, b => by simp only [opCmpValues]; exact Only.ite (only_pyCmp ..) (Only.mismatch he)
  | .builtinFn x, op, b => by simp only [opCmpValues]; exact Only.ite (only_pyCmp ..) (Only.mismatch he)
  | .userFn x, op, b => by simp only [opCmpValues]; exact Only.ite (only_pyCmp ..) (Only.mismatch he)
  | .method x y, op, b => by simp only [opCmpValues]; exact Only.ite (only_pyCmp ..) (Only.mismatch he)
  | .obj x, op, b => by simp only [opCmpValues]; exact Only.ite (only_pyCmp ..) (Only.mismatch he)
  | .undef, op, b => by simp only [opCmpValues]; exact Only.ite (only_pyCmp ..) (Only.mismatch he)
  | .set x, op, b => by simp only [opCmpValues]; exact Only.ite (only_pyCmp ..) (Only.mismatch he)
  | .map x y, op, b => by simp only [opCmpValues]; exact Only.ite (only_pyCmp ..) (Only.mismatch he)
theorem only_opCmpArrays (he : K .evaluation) (off : TzDb) : ∀ (xs : List Value) (op : CmpOp) (ys : List Value) (n m : Nat),
    Only K (opCmpArrays off xs op ys n m)
  | x :: xs, op, y :: ys, n, m => by
    simp only [opCmpArrays]
    exact (only_opCmpValues he off x .ne y).bind fun _ =>
      Only.ite (only_opCmpValues he off x op y) (only_opCmpArrays he off xs op ys n m)
  | [], op, _, n, m => by
    simp only [opCmpArrays]; exact Only.ite (only_pyCmp ..) (Only.ok _)
  | _ :: _, op, [], n, m => by
    simp only [opCmpArrays]; exact Only.ite (only_pyCmp ..) (Only.ok _)
end
theorem only_pyIn (off : TzDb) (m c : Value) : Only K (pyIn off m c) := by unfold pyIn; only
theorem only_opContains (hg : K .engine) (he : K .evaluation) (off : TzDb) (t : DataType) (c m : Value) : Only K (opContains off t c m) := by
  have h1 := only_fromValue (K := K) hg m
  have h2 := only_pyIn (K := K) off m c
  unfold opContains; only
theorem only_opGetItem (he : K .evaluation) (off : TzDb) (c i : Value) : Only K (opGetItem off c i) := by
  have h1 := only_assertInteger (K := K) he i
  unfold opGetItem itemCheck pyGetItem; only
theorem only_sliceArg (he : K .evaluation) (v : Value) : Only K (sliceArg v) := by
  have h1 := only_assertInteger (K := K) he v
  unfold sliceArg; only
theorem only_pyGetSlice (c : Value) (a b : Option Int) : Only K (pyGetSlice c a b) := by unfold pyGetSlice; only
theorem only_members (v : Value) : Only K v.members := by unfold Value.members; only
theorem only_validateArgs (hg : K .engine) (hf : K .functionCall) : ∀ (vs : List Value) (ts : List DataType), Only K (validateArgs vs ts)
  | v :: vs, t :: ts => by
    simp only [validateArgs, badArg]
    have h1 := only_fromValue hg v
    have h2 := only_validateArgs hg hf vs ts
    only
  | [], _ => by simp only [validateArgs]; only
  | _ :: _, [] => by simp only [validateArgs]; only
theorem only_validateCallValues (hg : K .engine) (he : K .evaluation) (hf : K .functionCall) (ft : DataType)
    (args : List Value) : Only K (validateCallValues ft args) := by
  have h := only_validateArgs hg hf args
  unfold validateCallValues badArg
  repeat' (first | exact h _ | (refine Only.err ?_; intro k hk; cases hk <;> assumption) | exact Only.ok _ | split)
theorem only_setOfList (off : TzDb) (xs : List Value) : Only K (setOfList off xs) := by unfold setOfList; only
theorem only_stringToFlt (env : Env) (s : String) : Only K (stringToFlt env s) := by unfold stringToFlt; simp only; only
theorem only_attrValue (env : Env) (k : AttrKind) (name : String) (he : name = "to_int" → K .evaluation) (v : Value) :
    Only K (attrValue env k name v) := by
  have h2 := only_members (K := K) v
  have h3 := only_stringToFlt (K := K) env
  have h6 : ∀ v, Only K (env.shortInt v) := fun v => by unfold Env.shortInt; only
  have h4 := fun he => only_assertInteger (K := K) he
  have h5 := only_setOfList (K := K)
  unfold attrValue
  simp only
  revert he
  split <;> intro he <;> repeat' (first
    | with_reducible assumption
    | with_reducible exact h3 _
    | with_reducible exact h6 _
    | with_reducible exact h4 (he rfl) _
    | with_reducible exact h5 _ _
    | with_reducible exact Only.ok _
    | ((with_reducible refine Only.err ?_); intro k hk; cases hk)
    | with_reducible refine Only.bind ?_ (fun _ => ?_)
    | with_reducible refine Only.ite ?_ ?_
    | split)
end

/-! ### Computations -/

/-- started with the variables `S`, every engine error that the computation raises is in `K`, and the variables are `S`
again afterwards -/
structure MO (K : EngErr → Prop) (S : List Assignment) {α : Type} (m : M α) : Prop where
  out : ∀ s, s.scopes = S → (∀ k, (m s).1 = .error (.eng k) → K k) ∧ (m s).2.scopes = S

section
variable {K : EngErr → Prop} {S : List Assignment}

theorem MO.pure {α : Type} (a : α) : MO K S (Pure.pure a : M α) := ⟨fun s hs => ⟨fun e h => (by cases h), hs⟩⟩
theorem MO.throw {α : Type} {e : Err} (h : ∀ k, e = .eng k → K k) : MO K S (M.throw e : M α) := by
  refine ⟨fun s hs => ⟨fun k h' => h k ?_, hs⟩⟩
  cases h'; rfl
theorem MO.mismatch {α : Type} (he : K .evaluation) : MO K S (M.throw .mismatch : M α) :=
  .throw fun k h => by cases h; exact he
theorem MO.lift {α : Type} {x : Except Err α} (h : Only K x) : MO K S (M.lift x) :=
  ⟨fun s hs => ⟨fun k h1 => h.out k h1, hs⟩⟩
theorem MO.bind {α β : Type} {m : M α} {f : α → M β} (hm : MO K S m) (hf : ∀ a, MO K S (f a)) : MO K S (m >>= f) := by
  refine ⟨fun s hs => ?_⟩
  obtain ⟨h1, h2⟩ := hm.out s hs
  rw [M.bind_apply]
  rcases hx : m s with ⟨e' | a, s1⟩ <;> rw [hx] at h1 h2
  · exact ⟨fun e he => h1 e (by cases he; rfl), h2⟩
  · exact (hf a).out s1 h2
theorem MO.ite {α : Type} {c : Prop} [Decidable c] {x y : M α} (hx : MO K S x) (hy : MO K S y) :
    MO K S (if c then x else y) := by split <;> assumption
theorem MO.withScope {α : Type} {m : M α} (a : Assignment) (h : MO K (S ++ [a]) m) : MO K S (M.withScope a m) := by
  refine ⟨fun s hs => ?_⟩
  obtain ⟨h1, h2⟩ := h.out { s with scopes := s.scopes ++ [a] } (by simp [hs])
  refine ⟨h1, ?_⟩
  show (m { s with scopes := s.scopes ++ [a] }).2.scopes.dropLast = S
  rw [h2]; simp
theorem MO.modify {f : St → St} (h : ∀ s, (f s).scopes = s.scopes) : MO K S (M.modify f) :=
  ⟨fun s hs => ⟨fun e h => (by cases h), (h s).trans hs⟩⟩
theorem MO.rethrow {α : Type} {e : Err} {m : M α} (h : ∀ k, e = .eng k → K k) (hm : ∀ s, (m s).2.scopes = s.scopes) :
    MO K S (M.catchErr m (fun _ => M.throw e)) := by
  refine ⟨fun s hs => ?_⟩
  have := hm s
  unfold M.catchErr
  rcases hx : m s with ⟨e' | a, s1⟩ <;> rw [hx] at this
  · refine ⟨fun k h1 => h k ?_, this.trans hs⟩
    cases h1; rfl
  · exact ⟨fun e h => (by cases h), this.trans hs⟩

/-- the steps these proofs consist of -/
macro "mo" : tactic => `(tactic| repeat' (first
  | assumption
  | exact MO.pure _
  | (refine MO.throw ?_; intro k hk; cases hk <;> assumption)
  | refine MO.bind ?_ (fun _ => ?_)
  | refine MO.ite ?_ ?_
  | split))

/-- the operators that are defined on all values -/
def BinOp.total : BinOp → Bool
  | .and | .or | .eq | .ne => true
  | _ => false

theorem mo_opFuzzy (env : Env) (search negate : Bool) (a b : Value) (he : K .evaluation)
    (hp : ∀ p, b = .str p → env.reValid p = false → K .regexSyntax) : MO K S (opFuzzy env search negate a b) := by
  unfold opFuzzy recordMatch
  split
  · rename_i p
    split
    · repeat' (first | exact MO.pure _ | exact MO.modify (fun _ => rfl) | refine MO.bind ?_ (fun _ => ?_) | split)
    · rename_i hv
      refine .throw fun k hk => ?_
      unfold Env.reError at hk
      split at hk <;> cases hk
      exact hp p rfl (by simpa using hv)
  · split <;> exact MO.pure _
  · exact .mismatch he

theorem mo_evalBin {env : Env} (ha : env.PyArith) (dc : DecCtx) (op : BinOp) {l r : M Value} (hl : MO K S l) (hr : MO K S r)
    (hg : K .engine) (he : op.total = false → K .evaluation)
    (hp : ∀ s n, op = .fuzzy s n → (∃ p, r = Pure.pure (.str p) ∧ env.reValid p = true) ∨ K .regexSyntax) :
    MO K S (evalBin env dc op l r) := by
  unfold evalBin
  cases op with
  | add => exact hl.bind fun _ => hr.bind fun _ => .lift (only_opAdd ha (he rfl) ..)
  | sub => exact hl.bind fun _ => hr.bind fun _ => .lift (only_opSub ha (he rfl) ..)
  | arith op => exact hl.bind fun _ => (MO.lift (only_assertNumeric (he rfl) _)).bind fun _ => hr.bind fun _ =>
      (MO.lift (only_assertNumeric (he rfl) _)).bind fun _ => .lift (only_opArith ha (he rfl) ..)
  | bit op =>
    refine hl.bind fun _ => (MO.lift (only_fromValue hg _)).bind fun _ => MO.ite ?_ ?_
    · exact (MO.lift (only_assertNatural (he rfl) _)).bind fun _ => hr.bind fun _ => .lift (only_opBitNat (he rfl) ..)
    · split
      · exact hr.bind fun _ => .lift (only_opBitSet hg (he rfl) ..)
      · exact .mismatch (he rfl)
  | shift op =>
    refine hl.bind fun _ => (MO.lift (only_fromValue hg _)).bind fun _ => MO.ite ?_ ?_
    · exact (MO.lift (only_assertNatural (he rfl) _)).bind fun _ => hr.bind fun _ => .lift (only_opBitNat (he rfl) ..)
    · split
      · exact hr.bind fun _ => .lift (only_opBitSet hg (he rfl) ..)
      · exact .mismatch (he rfl)
  | and => simp only; mo
  | or => simp only; mo
  | eq => simp only; mo
  | ne => simp only; mo
  | cmp op => exact hl.bind fun _ => hr.bind fun _ => (MO.lift (only_opCmpValues (he rfl) ..)).bind fun _ => .pure _
  | fuzzy search negate =>
    have key : ∀ a, MO K S (r >>= fun b => opFuzzy env search negate a b) := by
      intro a
      rcases hp search negate rfl with ⟨p, rfl, hv⟩ | hk
      · refine (?_ : MO K S (opFuzzy env search negate a (.str p)))
        exact mo_opFuzzy env search negate a (.str p) (he rfl) fun p' h1 h2 => by cases h1; rw [hv] at h2; cases h2
      · exact hr.bind fun b => mo_opFuzzy env search negate a b (he rfl) fun _ _ _ => hk
    refine hl.bind fun a => ?_
    split
    · exact key _
    · exact key _
    · exact .mismatch (he rfl)

theorem mo_seqM : ∀ {ms : List (M Value)}, (∀ m ∈ ms, MO K S m) → MO K S (seqM ms)
  | [], _ => .pure _
  | m :: ms, h => (h m (by simp)).bind fun _ => (mo_seqM fun m' hm => h m' (by simp [hm])).bind fun _ => .pure _
theorem mo_setM (off : TzDb) : ∀ {ms : List (M Value)} (acc : List Value), (∀ m ∈ ms, MO K S m) → MO K S (setM off acc ms)
  | [], _, _ => .pure _
  | m :: ms, acc, h => (h m (by simp)).bind fun _ =>
      MO.ite (mo_setM off _ fun m' hm => h m' (by simp [hm])) (.throw fun k hk => by cases hk)
theorem mo_compM (var : String) {c r : M Value} (hc : ∀ x, MO K (S ++ [⟨var, x, .undefined⟩]) c)
    (hr : ∀ x, MO K (S ++ [⟨var, x, .undefined⟩]) r) : ∀ xs, MO K S (compM var c r xs)
  | [] => .pure _
  | x :: xs => by
    unfold compM
    refine MO.bind (.withScope _ ((hc x).bind fun v => ?_)) fun _ => ?_
    · exact MO.ite ((hr x).bind fun _ => .pure _) (.pure _)
    exact (mo_compM var hc hr xs).bind fun _ => .pure _
theorem MO.bindG {α β : Type} {m : M α} {f : α → M β} {Q : α → Prop} (hm : MO K S m) (hg : GivesAll m Q)
    (hf : ∀ a, Q a → MO K S (f a)) : MO K S (m >>= f) := by
  refine ⟨fun s hs => ?_⟩
  obtain ⟨h1, h2⟩ := hm.out s hs
  rw [M.bind_apply]
  rcases hx : m s with ⟨e' | a, s1⟩ <;> rw [hx] at h1 h2
  · exact ⟨fun e he => h1 e (by cases he; rfl), h2⟩
  · exact (hf a (hg s a s1 hx)).out s1 h2

theorem mo_mapKeysM (hg : K .engine) (off : TzDb) : ∀ {ps : List (M Value × M Value)} (acc : List (Value × M Value)),
    (∀ p ∈ ps, MO K S p.1) → MO K S (mapKeysM off acc ps)
  | [], _, _ => .pure _
  | (k, v) :: ps, acc, h => by
    unfold mapKeysM
    refine (h (k, v) (by simp)).bind fun key => (MO.lift (only_fromValue hg _)).bind fun _ => ?_
    exact MO.ite (.throw fun k hk => by cases hk; exact hg)
      (MO.ite (mo_mapKeysM hg off _ fun p hp => h p (by simp [hp])) (.throw fun k hk => by cases hk))

theorem mo_mapValsM : ∀ {ps : List (Value × M Value)}, (∀ p ∈ ps, MO K S p.2) → MO K S (mapValsM ps)
  | [], _ => .pure _
  | (k, m) :: ps, h => (h (k, m) (by simp)).bind fun _ =>
      (mo_mapValsM fun p hp => h p (by simp [hp])).bind fun _ => .pure _

theorem mo_finishCall (hg : K .engine) (hf : K .functionCall) (env : Env) (dc : DecCtx) (rt : DataType) (f : Value)
    (args : List Value) : MO K S (finishCall env dc rt f args) := by
  have h : ∀ k, Err.eng .functionCall = Err.eng k → K k := fun k hk => by cases hk; exact hf
  unfold finishCall
  exact (MO.rethrow h (callFn_keeps _ _ _ _)).bind fun _ => (MO.lift (only_coerceVerify hg ..)).bind fun _ =>
    (MO.lift (only_fromValue hg _)).bind fun _ => MO.ite (.pure _) (.throw h)
theorem mo_evalCall (hg : K .engine) (he : K .evaluation) (hf : K .functionCall) (env : Env) (dc : DecCtx)
    (ft rt : DataType) (f : Value) (args : List Value) : MO K S (evalCall env dc ft rt f args) := by
  unfold evalCall
  exact MO.ite (mo_finishCall hg hf ..) ((MO.lift (only_validateCallValues hg he hf ..)).bind fun _ => mo_finishCall hg hf ..)
theorem mo_evalSlice (he : K .evaluation) (env : Env) (c : Value) {a b : M Value} (ha : MO K S a) (hb : MO K S b) :
    MO K S (evalSlice env c a b) := by
  unfold evalSlice
  exact ha.bind fun _ => (MO.lift (only_sliceArg he _)).bind fun _ => hb.bind fun _ =>
    (MO.lift (only_sliceArg he _)).bind fun _ => (MO.lift (only_pyGetSlice ..)).bind fun _ => .pure _

end

/-! ### What is written in a rule, and what each construct can raise -/

/-- **Specification.** The constructs of the language that can fail. -/
inductive Construct where
  /-- the literals that are read when the rule is made -/
  | floatLit (text : String)
  | datetimeLit (text : String)
  | timedeltaLit (text : String)
  /-- `{ key: value }` -/
  | mapping
  /-- `left op right`, and whether `right` is a string literal -/
  | operator (op : BinOp) (pattern : Bool)
  /-- `[ … for … in … ]` -/
  | comprehension
  /-- `… in …` -/
  | membership
  /-- `-…` -/
  | minus
  /-- `…[…]`, and whether it is `…&[…]` -/
  | item (safe : Bool)
  /-- `…[…:…]` -/
  | slice
  /-- `…(…)` -/
  | call
  /-- `….name` -/
  | attribute (name : String)
  /-- `name` -/
  | name (use : Use)

/-- is it a string literal? -/
def Raw.isText : Raw → Bool
  | .lit (.str _) => true
  | _ => false

mutual
/-- **Specification.** The constructs written in a rule; `vars` are the variables of the comprehensions around it. -/
def Raw.constructs (vars : List String) : Raw → List Construct
  | .lit _ => []
  | .floatLit s => [.floatLit s]
  | .datetimeLit s => [.datetimeLit s]
  | .timedeltaLit s => [.timedeltaLit s]
  | .array xs => Raw.constructsList vars xs
  | .set xs => Raw.constructsList vars xs
  | .mapping kvs => .mapping :: Raw.constructsPairs vars kvs
  | .bin op l r => .operator op r.isText :: (l.constructs vars ++ r.constructs vars)
  | .comp result var iterable cond => .comprehension ::
    (iterable.constructs vars ++ (cond.constructs (vars ++ [var]) ++ result.constructs (vars ++ [var])))
  | .contains c m => .membership :: (c.constructs vars ++ m.constructs vars)
  | .getAttr o n _ => .attribute n :: o.constructs vars
  | .getItem c i safe => .item safe :: (c.constructs vars ++ i.constructs vars)
  | .getSlice c a b _ => .slice :: (c.constructs vars ++ (a.constructs vars ++ b.constructs vars))
  | .sym n b => [.name ⟨n, b, !b && decide (n ∈ vars)⟩]
  | .call f args => .call :: (f.constructs vars ++ Raw.constructsList vars args)
  | .tern c t f => c.constructs vars ++ (t.constructs vars ++ f.constructs vars)
  | .not e => e.constructs vars
  | .neg e => .minus :: e.constructs vars
/-- members -/
def Raw.constructsList (vars : List String) : List Raw → List Construct
  | [] => []
  | x :: xs => x.constructs vars ++ Raw.constructsList vars xs
/-- items -/
def Raw.constructsPairs (vars : List String) : List (Raw × Raw) → List Construct
  | [] => []
  | (k, v) :: xs => k.constructs vars ++ (v.constructs vars ++ Raw.constructsPairs vars xs)
end

/-- **Specification.** The type that a name is known to have when the rule is made. -/
def declaredType (env : Env) (u : Use) : Except Err DataType :=
  if u.dollar then .ok (builtinType u.name) else env.typeResolver u.name

/-- **Specification.** The engine errors that each construct can raise when a rule is evaluated with `thing`. -/
inductive Raises (env : Env) (thing : Value) : Construct → EngErr → Prop
  /-- operands that the operator is not defined on; every pair of values can be compared with `==` and `!=` and used with
  `and` and `or` -/
  | operator {op : BinOp} {p : Bool} : op ≠ .and → op ≠ .or → op ≠ .eq → op ≠ .ne →
      Raises env thing (.operator op p) .evaluation
  /-- a pattern that is no regular expression; patterns written as string literals have been checked before -/
  | pattern {search negate : Bool} : Raises env thing (.operator (.fuzzy search negate) false) .regexSyntax
  /-- something that is not iterable -/
  | comprehension : Raises env thing .comprehension .evaluation
  | membership : Raises env thing .membership .evaluation
  | minus : Raises env thing .minus .evaluation
  /-- a container or an index of the wrong type -/
  | item {safe : Bool} : Raises env thing (.item safe) .evaluation
  /-- no such item -/
  | lookup : Raises env thing (.item false) .lookup
  | slice : Raises env thing .slice .evaluation
  /-- not a function -/
  | notFunction : Raises env thing .call .evaluation
  /-- wrong arguments, the function failed or returned something else than declared -/
  | call : Raises env thing .call .functionCall
  /-- `.n` on a value without such an attribute, which the resolver does not know either -/
  | attribute {n : String} {o : Value} {m : String} : env.resolver o n = .error (.eng (.symbolResolution m)) →
      env.defaultValue = none → Raises env thing (.attribute n) (.attributeResolution n)
  /-- a builtin attribute of the wrong type -/
  | attributeType {n : String} : Raises env thing (.attribute n) (.attributeType n)
  /-- a string or number that is no integer -/
  | toInt : Raises env thing (.attribute "to_int") .evaluation
  /-- the resolver failed otherwise -/
  | attributeResolver {n : String} {o : Value} {k : EngErr} : env.resolver o n = .error (.eng k) →
      (∀ m, k ≠ .symbolResolution m) → Raises env thing (.attribute n) k
  /-- the resolver refused the thing's `n` -/
  | resolver {n : String} {k : EngErr} : env.resolver thing n = .error (.eng k) →
      ((∃ m, k = .symbolResolution m) → env.defaultValue = none) → Raises env thing (.name ⟨n, false, false⟩) k
  /-- `$n` is no builtin -/
  | builtin {n : String} : n ∉ builtinNames → env.defaultValue = none →
      Raises env thing (.name ⟨n, true, false⟩) (.symbolResolution n)
  /-- the value does not have the type that the name is known to have -/
  | nameType {u : Use} : (u.bound = false → declaredType env u ≠ .ok .undefined) →
      Raises env thing (.name u) (.symbolType u.name)

/-! ### Nodes -/

mutual
/-- every node is a construct with the property -/
def Expr.Made (env : Env) (P : Construct → Prop) (bound : List String) : Expr → Prop
  | .lit .. => True
  | .sym n rt b => P (.name ⟨n, b, !b && decide (n ∈ bound)⟩) ∧
      ((!b && decide (n ∈ bound)) = false → declaredType env ⟨n, b, false⟩ = .ok rt)
  | .array xs | .set xs => Expr.MadeList env P bound xs
  | .mapping kvs => Expr.MadePairs env P bound kvs
  | .bin op l r => (∃ p, P (.operator op p) ∧ (p = true → ∀ s n, op = .fuzzy s n →
      ∃ x t, r = .lit (.str x) t ∧ env.reValid x = true)) ∧ l.Made env P bound ∧ r.Made env P bound
  | .comp result var iterable cond => P .comprehension ∧ iterable.Made env P bound ∧
      cond.Made env P (bound ++ [var]) ∧ result.Made env P (bound ++ [var])
  | .contains c m => P .membership ∧ c.Made env P bound ∧ m.Made env P bound
  | .getAttr o n _ => P (.attribute n) ∧ o.Made env P bound
  | .getItem c i safe => P (.item safe) ∧ c.Made env P bound ∧ i.Made env P bound
  | .getSlice c a b _ => P .slice ∧ c.Made env P bound ∧ a.Made env P bound ∧ b.Made env P bound
  | .call f args => P .call ∧ f.Made env P bound ∧ Expr.MadeList env P bound args
  | .tern c t f => c.Made env P bound ∧ t.Made env P bound ∧ f.Made env P bound
  | .not e => e.Made env P bound
  | .neg e => P .minus ∧ e.Made env P bound
def Expr.MadeList (env : Env) (P : Construct → Prop) (bound : List String) : List Expr → Prop
  | [] => True
  | x :: xs => x.Made env P bound ∧ Expr.MadeList env P bound xs
def Expr.MadePairs (env : Env) (P : Construct → Prop) (bound : List String) : List (Expr × Expr) → Prop
  | [] => True
  | (k, v) :: xs => k.Made env P bound ∧ v.Made env P bound ∧ Expr.MadePairs env P bound xs
end

theorem isSymErr_iff {e : Err} : isSymErr e = true ↔ ∃ m, e = .eng (.symbolResolution m) := by
  unfold isSymErr
  split
  · simp
  · rename_i h
    simp only [Bool.false_eq_true, false_iff]
    rintro ⟨m, rfl⟩
    exact h m rfl

theorem only_checkSymbol {K : EngErr → Prop} (hg : K .engine) (n : String) (rt : DataType)
    (h : rt ≠ .undefined → K (.symbolType n)) (v : Value) : Only K (checkSymbol n rt v) := by
  by_cases hrt : rt = .undefined
  · subst hrt
    simp only [checkSymbol, DataType.eq]
    exact .ok _
  · have h' := h hrt
    have h1 := only_fromValue hg v
    unfold checkSymbol
    simp only
    only

section
variable {K : EngErr → Prop} {S : List Assignment}

theorem mo_evalSymbol (hg : K .engine) (env : Env) (thing : Value) {n : String} {b : Bool} {rt : DataType}
    (h : ∀ k, Raises env thing (.name ⟨n, b, !b && decide (n ∈ List.map (fun a : Assignment => a.name) S)⟩) k → K k)
    (hd : (!b && decide (n ∈ List.map (fun a : Assignment => a.name) S)) = false →
      declaredType env ⟨n, b, false⟩ = .ok rt) :
    MO K S (evalSymbol env thing n rt b) := by
  have hc : ∀ v, Only K (checkSymbol n rt v) := fun v => only_checkSymbol hg n rt (fun hrt => h _ (.nameType (by
    intro hb
    have h2 := hd hb
    intro h3
    have h4 : declaredType env ⟨n, b, false⟩ = .ok .undefined := h3
    rw [h2] at h4
    cases h4
    exact hrt rfl))) v
  refine MO.bind (MO.mk fun s hs => ⟨fun k hk => ?_, ?_⟩) fun v => .lift (hc _)
  · have key : ∀ e' s', ctxResolve env thing n b s = (.error e', s') →
        (isSymErr e' = true → env.defaultValue = none) → ∀ k, e' = .eng k → K k := by
      intro e' s' hcx hdf k hk
      subst hk
      unfold ctxResolve at hcx
      cases b with
      | true =>
        simp only [if_true] at hcx
        split at hcx
        · cases hcx
        · rename_i hb
          cases hcx
          exact h _ (.builtin ((builtinValue_iff env _ n).1 hb) (hdf rfl))
      | false =>
        simp only [Bool.false_eq_true, if_false] at hcx
        split at hcx
        · cases hcx
        · rename_i hl
          simp only [Prod.mk.injEq] at hcx
          have hv : n ∉ List.map (fun a : Assignment => a.name) S := by
            intro hm
            rw [hs] at hl
            obtain ⟨a, ha⟩ := scopeLookup_bound hm
            rw [hl] at ha; cases ha
          refine h _ ?_
          simp only [hv, decide_false, Bool.and_false]
          exact .resolver hcx.1 fun ⟨m, hm⟩ => hdf (isSymErr_iff.2 ⟨m, by rw [hm]⟩)
    rcases hx : ctxResolve env thing n b s with ⟨e' | a, s1⟩
    · simp only [M.catchErr, hx] at hk
      cases hsy : isSymErr e' with
      | false =>
        simp only [hsy, M.throw] at hk
        cases hk
        exact key _ s1 hx (by simp [hsy]) _ rfl
      | true =>
        cases hdv : env.defaultValue with
        | none =>
          simp only [hsy, hdv, M.throw] at hk
          cases hk
          exact key _ s1 hx (fun _ => hdv) _ rfl
        | some d =>
          simp only [hsy, hdv, M.pure_apply] at hk
          cases hk
    · simp only [M.catchErr, hx] at hk
      cases hk
  · have hk := ctxResolve_keeps_scopes env thing n b s
    rcases hx : ctxResolve env thing n b s with ⟨e' | a, s1⟩ <;> rw [hx] at hk
    · simp only [M.catchErr, hx]
      cases isSymErr e' <;> cases env.defaultValue <;> exact hk.trans hs
    · simp only [M.catchErr, hx]
      exact hk.trans hs

theorem only_resolveAttr {K : EngErr → Prop} (hg : K .engine) (env : Env) (o : Value) (n : String)
    (hr : K (.attributeResolution n)) (ht : K (.attributeType n)) (hi : n = "to_int" → K .evaluation) :
    Only K (resolveAttr env o n) := by
  have h1 : ∀ v, Only K (fromValue v) := only_fromValue hg
  have h2 : ∀ k, Only K (attrValue env k n o) := fun k => only_attrValue env k n hi o
  have h3 : ∀ v, Only K (coerceVerify env.utcoffset v) := only_coerceVerify hg _
  unfold resolveAttr
  split
  · only
  · rename_i e _ hf
    exact .err fun k hk => (h1 o).out k (by rw [hf, hk])
  · split
    · only
    · split
      · only
      · refine (h2 _).bind fun _ => (h3 _).bind fun _ => (h1 _).bind fun _ => ?_
        only

theorem mo_evalGetAttr (hg : K .engine) (env : Env) (thing o : Value) {n : String}
    (h : ∀ k, Raises env thing (.attribute n) k → K k) : MO K S (evalGetAttr env o n) := by
  refine ⟨fun s hs => ⟨fun k hk => ?_, ?_⟩⟩
  · unfold evalGetAttr at hk
    split at hk
    · cases hk
    · rename_i e0 hr
      have hres : ∀ k, e0 = .eng k → k = .attributeResolution n ∨ K k := fun k hk =>
        (only_resolveAttr (K := fun k => k = .attributeResolution n ∨ K k) (.inr hg) env o n (.inl rfl)
          (.inr (h _ .attributeType)) (fun hn => .inr (h _ (by subst hn; exact .toInt)))).out k (by rw [hr, hk])
      split at hk
      · rename_i hattr
        have key : ∀ e' s', ctxResolve env o n false s = (.error e', s') → env.resolver o n = .error e' := by
          intro e' s' hc
          unfold ctxResolve at hc
          simp only [Bool.false_eq_true, if_false] at hc
          split at hc
          · cases hc
          · simp only [Prod.mk.injEq] at hc
            exact hc.1
        split at hk
        · cases hk
        · rename_i e' s' hc
          split at hk
          · rename_i hsy
            split at hk
            · cases hk
            · rename_i hd
              cases hk
              obtain ⟨m, rfl⟩ := isSymErr_iff.1 hsy
              rcases hres k rfl with rfl | hk
              · exact h _ (.attribute (key _ _ hc) hd)
              · exact hk
          · rename_i hsy
            cases hk
            refine h _ (.attributeResolver (key _ _ hc) fun m hm => hsy ?_)
            rw [hm]; rfl
      · rename_i hne
        cases hk
        rcases hres k rfl with rfl | hk
        · exact absurd rfl hne
        · exact hk
  · obtain ⟨x, l, hh⟩ := evalGetAttr_framed env o n s.scopes s.groups
    have hs' : s = ⟨s.scopes, s.groups, s.symbols, s.log⟩ := rfl
    rw [hs', hh]
    exact hs
end

/-! ### Evaluation -/

theorem BinOp.raises {env : Env} {thing : Value} {op : BinOp} {p : Bool} (h : op.total = false) :
    Raises env thing (.operator op p) .evaluation :=
  .operator (by rintro rfl; cases h) (by rintro rfl; cases h) (by rintro rfl; cases h) (by rintro rfl; cases h)

section
variable {K : EngErr → Prop} {env : Env} (hpa : env.PyArith) (dc : DecCtx) (thing : Value) (hg : K .engine)
include hpa hg

mutual
theorem mo_eval : ∀ (e : Expr) {S : List Assignment},
    e.Made env (fun c => ∀ k, Raises env thing c k → K k) (S.map (·.name)) → MO K S (eval env dc thing e)
  | .lit v _, S, _ => by simp only [eval]; exact .pure _
  | .array xs, S, h => by
    simp only [eval]
    exact (mo_seqM (mo_evals xs (by simpa [Expr.Made] using h))).bind fun _ => .pure _
  | .set xs, S, h => by
    simp only [eval]
    exact (mo_setM _ _ (mo_evals xs (by simpa [Expr.Made] using h))).bind fun _ => .pure _
  | .mapping kvs, S, h => by
    simp only [eval]
    have hp := mo_evalPairs kvs (by simpa [Expr.Made] using h)
    exact MO.bindG (mo_mapKeysM hg _ _ fun p hm => (hp p hm).1)
      (mapKeysM_all _ (Q := fun m => MO K S m) [] (fun p hm => (hp p hm).2) (by simp))
      fun a hq => (mo_mapValsM hq).bind fun _ => .pure _
  | .bin op l r, S, h => by
    simp only [Expr.Made] at h
    obtain ⟨⟨p, hp, hpat⟩, h1, h2⟩ := h
    simp only [eval]
    refine mo_evalBin hpa dc op (mo_eval l h1) (mo_eval r h2) hg (fun ht => hp _ (BinOp.raises ht)) fun s n hop => ?_
    subst hop
    cases p with
    | false => exact .inr (hp _ .pattern)
    | true =>
      obtain ⟨x, t, rfl, hv⟩ := hpat rfl s n rfl
      exact .inl ⟨x, by simp only [eval], hv⟩
  | .comp r var it c, S, h => by
    simp only [Expr.Made] at h
    have he : K .evaluation := h.1 _ .comprehension
    simp only [eval]
    refine (mo_eval it h.2.1).bind fun _ => (MO.lift (only_fromValue hg _)).bind fun _ => MO.ite ?_ (.mismatch he)
    exact (MO.lift (only_members _)).bind fun _ => (mo_compM var (fun x => mo_eval c (by simpa using h.2.2.1))
      (fun x => mo_eval r (by simpa using h.2.2.2)) _).bind fun _ => .pure _
  | .contains c m, S, h => by
    simp only [Expr.Made] at h
    simp only [eval]
    exact (mo_eval c h.2.1).bind fun _ => (MO.lift (only_fromValue hg _)).bind fun _ => (mo_eval m h.2.2).bind fun _ =>
      (MO.lift (only_opContains hg (h.1 _ .membership) ..)).bind fun _ => .pure _
  | .getAttr o n safe, S, h => by
    simp only [Expr.Made] at h
    simp only [eval]
    exact (mo_eval o h.2).bind fun _ => MO.ite (.pure _) (mo_evalGetAttr hg env thing _ h.1)
  | .getItem c i safe, S, h => by
    simp only [Expr.Made] at h
    have he : K .evaluation := h.1 _ .item
    simp only [eval]
    refine (mo_eval c h.2.1).bind fun _ => MO.ite (MO.ite (.pure _) (.mismatch he)) ?_
    refine (mo_eval i h.2.2).bind fun _ => (MO.lift (only_opGetItem he ..)).bind fun x => ?_
    cases x
    · cases safe with
      | true => exact .pure _
      | false => exact .throw fun k hk => by cases hk; exact h.1 _ .lookup
    · exact .pure _
  | .getSlice c a b safe, S, h => by
    simp only [Expr.Made] at h
    have he : K .evaluation := h.1 _ .slice
    simp only [eval]
    exact (mo_eval c h.2.1).bind fun _ => MO.ite (MO.ite (.pure _) (.mismatch he))
      (mo_evalSlice he env _ (mo_eval a h.2.2.1) (mo_eval b h.2.2.2))
  | .sym n rt b, S, h => by
    simp only [Expr.Made] at h
    simp only [eval]
    exact mo_evalSymbol hg env thing h.1 h.2
  | .call f args, S, h => by
    simp only [Expr.Made] at h
    have he : K .evaluation := h.1 _ .notFunction
    simp only [eval]
    exact (mo_eval f h.2.1).bind fun _ => MO.ite ((mo_seqM (mo_evals args h.2.2)).bind fun _ =>
      mo_evalCall hg he (h.1 _ .call) ..) (.mismatch he)
  | .tern c t f, S, h => by
    simp only [Expr.Made] at h
    simp only [eval]
    exact (mo_eval c h.1).bind fun _ => MO.ite (mo_eval t h.2.1) (mo_eval f h.2.2)
  | .not e, S, h => by
    simp only [Expr.Made] at h
    simp only [eval]
    exact (mo_eval e h).bind fun _ => .pure _
  | .neg e, S, h => by
    simp only [Expr.Made] at h
    simp only [eval]
    exact (mo_eval e h.2).bind fun _ => .lift (only_opNeg (h.1 _ .minus) ..)
theorem mo_evals : ∀ (xs : List Expr) {S : List Assignment},
    Expr.MadeList env (fun c => ∀ k, Raises env thing c k → K k) (S.map (·.name)) xs → ∀ m ∈ evals env dc thing xs, MO K S m
  | [], S, _ => by simp [evals]
  | x :: xs, S, h => by
    simp only [Expr.MadeList] at h
    intro m hm
    simp only [evals, List.mem_cons] at hm
    rcases hm with rfl | hm
    · exact mo_eval x h.1
    · exact mo_evals xs h.2 m hm
theorem mo_evalPairs : ∀ (xs : List (Expr × Expr)) {S : List Assignment},
    Expr.MadePairs env (fun c => ∀ k, Raises env thing c k → K k) (S.map (·.name)) xs →
    ∀ p ∈ evalPairs env dc thing xs, MO K S p.1 ∧ MO K S p.2
  | [], S, _ => by simp [evalPairs]
  | (k, v) :: xs, S, h => by
    simp only [Expr.MadePairs] at h
    intro m hm
    simp only [evalPairs, List.mem_cons] at hm
    rcases hm with rfl | hm
    · exact ⟨mo_eval k h.1, mo_eval v h.2.1⟩
    · exact mo_evalPairs xs h.2.2 m hm
end
end

/-! ### From the text to the nodes -/

section
variable {env : Env} {P : Construct → Prop}

mutual
theorem reduced_made (bound : List String) : ∀ e : Expr, e.reduced = true → e.Made env P bound
  | .lit .., _ => by simp [Expr.Made]
  | .array xs, h | .set xs, h => by
    simp only [Expr.Made]; simp only [Expr.reduced] at h; exact reduceds_made bound xs h
  | .mapping kvs, h => by
    simp only [Expr.Made]; simp only [Expr.reduced] at h; exact reducedp_made bound kvs h
  | .bin .., h | .comp .., h | .contains .., h | .getAttr .., h | .getItem .., h | .getSlice .., h
  | .sym .., h | .call .., h | .tern .., h | .not _, h | .neg _, h => by simp [Expr.reduced] at h
theorem reduceds_made (bound : List String) : ∀ es : List Expr, Expr.reducedList es = true →
    Expr.MadeList env P bound es
  | [], _ => by simp [Expr.MadeList]
  | e :: es, h => by
    simp only [Expr.reducedList, Bool.and_eq_true] at h
    simp only [Expr.MadeList]
    exact ⟨reduced_made bound e h.1, reduceds_made bound es h.2⟩
theorem reducedp_made (bound : List String) : ∀ es : List (Expr × Expr),
    Expr.reducedPairs es = true → Expr.MadePairs env P bound es
  | [], _ => by simp [Expr.MadePairs]
  | (k, v) :: es, h => by
    simp only [Expr.reducedPairs, Bool.and_eq_true] at h
    simp only [Expr.MadePairs]
    exact ⟨reduced_made bound k h.1.1, reduced_made bound v h.1.2,
      reducedp_made bound es h.2⟩
end

theorem litOf_made {off : TzDb} {v : Value} {e : Expr} (bound : List String)
    (h : litOf off v = .ok e) : e.Made env P bound := by
  simp only [litOf, except_bind_ok, Except.ok.injEq] at h
  obtain ⟨t, _, rfl⟩ := h
  exact reduced_made bound _ (Expr.ofValue_reduced off v)

theorem folds_made {dct : DecCtx} {Γ : List Assignment} {n e : Expr}
    (bound : List String) (h : Folds env dct Γ n e) : e.Made env P bound := by
  obtain ⟨v, -, h⟩ := h
  exact litOf_made bound h

theorem attrLit_made {bound : List String} {n e : Expr} (h : e.Made env P bound) :
    (attrLit n e).Made env P bound := by
  unfold attrLit
  split
  · split <;> simp [Expr.Made]
  · exact h

theorem scopeLookup_free {S : List Assignment} {name : String} (h : name ∉ S.map (·.name)) : scopeLookup S name = none := by
  unfold scopeLookup
  rw [List.find?_eq_none]
  intro a ha hn
  exact h (List.mem_map.2 ⟨a, ha, by simpa using hn⟩)

theorem text_pattern {dct : DecCtx} {Γ : List Assignment} {op : BinOp} {r : Raw} {l' r' : Expr} (h : Built env dct Γ r r')
    (hc : op.check env l' r' = .ok ()) : r.isText = true → ∀ s n, op = .fuzzy s n →
      ∃ x t, r' = .lit (.str x) t ∧ env.reValid x = true := by
  intro ht s n hop
  subst hop
  unfold Raw.isText at ht
  split at ht
  · rename_i x
    simp only [Built] at h
    obtain ⟨t, -, rfl⟩ := h
    refine ⟨x, t, rfl, ?_⟩
    unfold BinOp.check at hc
    simp only at hc
    split at hc
    · change (if env.reValid x = true then Except.ok () else Except.error (env.reError x)) = Except.ok () at hc
      split at hc
      · assumption
      · cases hc
    · cases hc
  · cases ht

mutual
theorem built_made {dct : DecCtx} : ∀ (raw : Raw) {Γ : List Assignment} {e : Expr}, (∀ x ∈ raw.constructs (Γ.map (·.name)), P x) → Built env dct Γ raw e → e.Made env P (Γ.map (·.name))
  | .sym n b, Γ, e, hn, h => by
    simp only [Built] at h
    obtain ⟨t, ht, rfl⟩ := h
    simp only [Raw.constructs] at hn
    simp only [Expr.Made]
    refine ⟨hn _ (by simp), fun hb => ?_⟩
    cases b with
    | true => simpa [symType, declaredType] using ht
    | false =>
      simp only [Bool.not_false, Bool.true_and, decide_eq_false_iff_not] at hb
      simp only [symType, Bool.false_eq_true, if_false, scopeLookup_free hb] at ht
      simpa [declaredType] using ht
  | .lit _, Γ, e, hn, h | .floatLit _, Γ, e, hn, h | .datetimeLit _, Γ, e, hn, h
  | .timedeltaLit _, Γ, e, hn, h => by
    simp only [Built] at h
    obtain ⟨_, _, rfl⟩ := h
    simp [Expr.Made]
  | .array xs, Γ, e, hn, h | .set xs, Γ, e, hn, h => by
    simp only [Built] at h
    obtain ⟨es, h1, rfl⟩ := h
    simp only [Raw.constructs, List.mem_append, List.mem_cons, or_imp, forall_and, forall_eq] at hn
    simp only [Expr.Made]
    exact builts_made xs hn h1
  | .mapping kvs, Γ, e, hn, h => by
    simp only [Built] at h
    obtain ⟨es, h1, -, rfl⟩ := h
    simp only [Raw.constructs, List.mem_append, List.mem_cons, or_imp, forall_and, forall_eq] at hn
    simp only [Expr.Made]
    exact builtp_made kvs hn.2 h1
  | .bin op l r, Γ, e, hn, h => by
    simp only [Built] at h
    obtain ⟨l', r', h1, h2, hc, h3⟩ := h
    simp only [Raw.constructs, List.mem_append, List.mem_cons, or_imp, forall_and, forall_eq] at hn
    split at h3
    · exact folds_made _ h3
    · subst h3
      simp only [Expr.Made]
      exact ⟨⟨_, hn.1, text_pattern h2 hc⟩, built_made l hn.2.1 h1, built_made r hn.2.2 h2⟩
  | .comp result var iterable cond, Γ, e, hn, h => by
    simp only [Built] at h
    obtain ⟨it, t, c, r, h1, -, h2, h3, rfl⟩ := h
    simp only [Raw.constructs, List.mem_append, List.mem_cons, or_imp, forall_and, forall_eq] at hn
    simp only [Expr.Made]
    exact ⟨hn.1, built_made iterable hn.2.1 h1, by simpa using built_made cond (by simpa using hn.2.2.1) h2,
      by simpa using built_made result (by simpa using hn.2.2.2) h3⟩
  | .contains l r, Γ, e, hn, h => by
    simp only [Built] at h
    obtain ⟨l', r', h1, h2, -, h3⟩ := h
    simp only [Raw.constructs, List.mem_append, List.mem_cons, or_imp, forall_and, forall_eq] at hn
    split at h3
    · obtain ⟨v, -, rfl⟩ := h3
      simp [Expr.Made]
    · subst h3
      simp only [Expr.Made]
      exact ⟨hn.1, built_made l hn.2.1 h1, built_made r hn.2.2 h2⟩
  | .getAttr o name safe, Γ, e, hn, h => by
    simp only [Built] at h
    obtain ⟨o', h1, -, h3⟩ := h
    simp only [Raw.constructs, List.mem_append, List.mem_cons, or_imp, forall_and, forall_eq] at hn
    split at h3
    · obtain ⟨e', hf, rfl⟩ := h3
      exact attrLit_made (folds_made _ hf)
    · subst h3
      simp only [Expr.Made]
      exact ⟨hn.1, built_made o hn.2 h1⟩
  | .getItem l r safe, Γ, e, hn, h => by
    simp only [Built] at h
    obtain ⟨l', r', h1, h2, -, h3⟩ := h
    simp only [Raw.constructs, List.mem_append, List.mem_cons, or_imp, forall_and, forall_eq] at hn
    split at h3
    · subst h3; simp [Expr.Made]
    split at h3
    · exact folds_made _ h3
    · subst h3
      simp only [Expr.Made]
      exact ⟨hn.1, built_made l hn.2.1 h1, built_made r hn.2.2 h2⟩
  | .getSlice c a b safe, Γ, e, hn, h => by
    simp only [Built] at h
    obtain ⟨c', a', b', h1, h2, h3, -, h4⟩ := h
    simp only [Raw.constructs, List.mem_append, List.mem_cons, or_imp, forall_and, forall_eq] at hn
    split at h4
    · exact folds_made _ h4
    · subst h4
      simp only [Expr.Made]
      exact ⟨hn.1, built_made c hn.2.1 h1, built_made a hn.2.2.1 h2,
        built_made b hn.2.2.2 h3⟩
  | .call f args, Γ, e, hn, h => by
    simp only [Built] at h
    obtain ⟨f', as, h1, h2, -, h3⟩ := h
    simp only [Raw.constructs, List.mem_append, List.mem_cons, or_imp, forall_and, forall_eq] at hn
    split at h3
    · exact folds_made _ h3
    · subst h3
      simp only [Expr.Made]
      exact ⟨hn.1, built_made f hn.2.1 h1, builts_made args hn.2.2 h2⟩
  | .tern c t f, Γ, e, hn, h => by
    simp only [Built] at h
    obtain ⟨c', t', f', h1, h2, h3, rfl⟩ := h
    simp only [Raw.constructs, List.mem_append, List.mem_cons, or_imp, forall_and, forall_eq] at hn
    have i1 := built_made c hn.1 h1
    have i2 := built_made t hn.2.1 h2
    have i3 := built_made f hn.2.2 h3
    unfold mkTern
    split
    · split
      · exact i2
      · exact i3
    · simp only [Expr.Made]
      exact ⟨i1, i2, i3⟩
  | .not x, Γ, e, hn, h => by
    simp only [Built] at h
    obtain ⟨x', h1, h3⟩ := h
    simp only [Raw.constructs, List.mem_append, List.mem_cons, or_imp, forall_and, forall_eq] at hn
    split at h3
    · obtain ⟨v, -, rfl⟩ := h3
      simp [Expr.Made]
    · subst h3
      simp only [Expr.Made]
      exact built_made x hn h1
  | .neg x, Γ, e, hn, h => by
    simp only [Built] at h
    obtain ⟨x', h1, h3⟩ := h
    simp only [Raw.constructs, List.mem_append, List.mem_cons, or_imp, forall_and, forall_eq] at hn
    split at h3
    · obtain ⟨w, v, t, -, -, -, rfl⟩ := h3
      simp [Expr.Made]
    · subst h3
      simp only [Expr.Made]
      exact ⟨hn.1, built_made x hn.2 h1⟩
theorem builts_made {dct : DecCtx} : ∀ (xs : List Raw) {Γ : List Assignment}
    {es : List Expr}, (∀ x ∈ Raw.constructsList (Γ.map (·.name)) xs, P x) → BuiltList env dct Γ xs es →
    Expr.MadeList env P (Γ.map (·.name)) es
  | [], Γ, es, hn, h => by
    simp only [BuiltList] at h
    subst h; simp [Expr.MadeList]
  | x :: xs, Γ, es, hn, h => by
    simp only [BuiltList] at h
    obtain ⟨e, es', h1, h2, rfl⟩ := h
    simp only [Raw.constructsList, List.mem_append, or_imp, forall_and] at hn
    simp only [Expr.MadeList]
    exact ⟨built_made x hn.1 h1, builts_made xs hn.2 h2⟩
theorem builtp_made {dct : DecCtx} : ∀ (xs : List (Raw × Raw)) {Γ : List Assignment}
    {es : List (Expr × Expr)}, (∀ x ∈ Raw.constructsPairs (Γ.map (·.name)) xs, P x) →
    BuiltPairs env dct Γ xs es → Expr.MadePairs env P (Γ.map (·.name)) es
  | [], Γ, es, hn, h => by
    simp only [BuiltPairs] at h
    subst h; simp [Expr.MadePairs]
  | (k, v) :: xs, Γ, es, hn, h => by
    simp only [BuiltPairs] at h
    obtain ⟨k', v', es', h1, h2, h3, rfl⟩ := h
    simp only [Raw.constructsPairs, List.mem_append, or_imp, forall_and] at hn
    simp only [Expr.MadePairs]
    exact ⟨built_made k hn.1 h1, built_made v hn.2.1 h2,
      builtp_made xs hn.2.2 h3⟩
end

end

/-! ### Making a rule -/

/-- **Specification.** The engine errors that each construct can raise when the rule is made. -/
inductive Refused (env : Env) : Construct → EngErr → Prop
  /-- constants are evaluated already then, with None for the thing -/
  | constant {c : Construct} {k : EngErr} : (∀ u, c ≠ .name u) → Raises env .none c k → Refused env c k
  /-- operands whose types are known and wrong -/
  | operator {op : BinOp} {p : Bool} : Refused env (.operator op p) .evaluation
  /-- a pattern that is no regular expression -/
  | pattern {search negate p : Bool} : Refused env (.operator (.fuzzy search negate) p) .regexSyntax
  | floatLit {s : String} : Refused env (.floatLit s) .floatSyntax
  | datetimeLit {s : String} : Refused env (.datetimeLit s) .datetimeSyntax
  | timedeltaLit {s : String} : Refused env (.timedeltaLit s) .timedeltaSyntax
  /-- an attribute that values of the known type do not have -/
  | attribute {n : String} : Refused env (.attribute n) (.attributeResolution n)
  /-- the type resolver refused the name -/
  | name {n : String} {k : EngErr} : env.typeResolver n = .error (.eng k) → Refused env (.name ⟨n, false, false⟩) k

section
variable {K : EngErr → Prop} {S : List Assignment}

theorem mo_resolveType (env : Env) (n : String) (b : Bool)
    (h : ∀ k, Refused env (.name ⟨n, b, !b && decide (n ∈ List.map (fun a : Assignment => a.name) S)⟩) k → K k) :
    MO K S (ctxResolveType env n b) := by
  refine ⟨fun s hs => ?_⟩
  unfold ctxResolveType
  cases b with
  | true => exact ⟨fun k hk => (by cases hk), hs⟩
  | false =>
    simp only [Bool.false_eq_true, if_false]
    split
    · exact ⟨fun k hk => (by cases hk), hs⟩
    · rename_i hl
      refine ⟨fun k hk => h k ?_, hs⟩
      have hv : n ∉ List.map (fun a : Assignment => a.name) S := by
        intro hm
        rw [hs] at hl
        obtain ⟨a, ha⟩ := scopeLookup_bound hm
        rw [hl] at ha; cases ha
      simp only [hv, decide_false, Bool.and_false]
      exact .name hk

theorem only_checkNaturalLit (he : K .evaluation) (e : Expr) : Only K (checkNaturalLit e) := by
  unfold checkNaturalLit
  split
  · exact only_assertNatural he _
  · exact .ok _

theorem only_check (env : Env) (op : BinOp) (l r : Expr) (he : K .evaluation)
    (hp : ∀ s n, op = .fuzzy s n → K .regexSyntax) : Only K (op.check env l r) := by
  have h1 := only_checkNaturalLit he
  have hm : Only K (.error .mismatch : Except Err Unit) := .mismatch he
  have hk : Only K (.ok () : Except Err Unit) := .ok _
  unfold BinOp.check
  cases op <;> simp only
  case fuzzy s n =>
    have h2 : ∀ p, Only K (.error (env.reError p) : Except Err Unit) := fun p => .err fun k hk => by
      unfold Env.reError at hk
      split at hk <;> cases hk
      exact hp s n rfl
    split
    · refine Only.bind hk fun _ => ?_
      split
      · exact .ite hk (h2 _)
      · exact hk
    · exact hm.bind fun _ => by split <;> first | exact .ite hk (h2 _) | exact hk
  all_goals
    repeat' (first
      | exact hk
      | exact hm
      | exact h1 _
      | refine Only.bind ?_ (fun _ => ?_)
      | split)

theorem only_litOf (hg : K .engine) (off : TzDb) (v : Value) : Only K (litOf off v) := by
  have := only_fromValue hg v
  unfold litOf
  only

theorem only_mkMapping (hg : K .engine) (kvs : List (Expr × Expr)) : Only K (mkMapping kvs) := by
  unfold mkMapping mkMappingType; only

theorem only_checkContains (he : K .evaluation) (c m : DataType) : Only K (checkContains c m) := by
  unfold checkContains; only

theorem only_iterVarType (he : K .evaluation) (t : DataType) : Only K (iterVarType t) := by
  unfold iterVarType; only

theorem only_checkItem (he : K .evaluation) (c i : DataType) (safe : Bool) (hl : safe = false → K .lookup) :
    Only K (checkItem c i safe) := by
  cases safe with
  | true =>
    unfold checkItem
    split
    · only
    · only
    · only
    · simp only [Bool.true_or, if_true]; only
    all_goals only
  | false =>
    have hl := hl rfl
    unfold checkItem; only

theorem only_checkSlice (he : K .evaluation) (c : DataType) (safe : Bool) : Only K (checkSlice c safe) := by
  unfold checkSlice; only

theorem resolveAttrType_error {t : DataType} {n : String} {e : Err} (h : resolveAttrType t n = .error e) :
    e = .eng (.attributeResolution n) := by
  unfold resolveAttrType at h
  repeat' split at h
  all_goals first | (cases h; rfl) | cases h

theorem only_checkAttr (t : DataType) (n : String) (safe : Bool) (h : K (.attributeResolution n)) :
    Only K (checkAttr t n safe) := by
  unfold checkAttr
  split
  · exact .ok _
  split
  · exact .ok _
  split
  · exact .ok _
  · rename_i e he
    rw [resolveAttrType_error he]
    exact .ite (.ok _) (.err fun k hk => by cases hk; exact h)

theorem only_validateCall (he : K .evaluation) (hf : K .functionCall) (ft : DataType) (args : List DataType) :
    Only K (validateCall ft args) := by
  unfold validateCall badArg
  repeat' (first | (refine Only.err ?_; intro k hk; cases hk <;> assumption) | exact Only.ok _ | split)

theorem only_parseDatetime (env : Env) (s : String) (h : K .datetimeSyntax) : Only K (parseDatetime env s) := by
  unfold parseDatetime Env.isoError
  split
  · refine .err fun k hk => ?_
    split at hk <;> cases hk
    exact h
  all_goals exact .ok _

theorem only_parseFloat (s : List Char) (h : K .floatSyntax) : Only K (parseFloat s) := by
  unfold parseFloat; simp only; only

theorem only_parseTimedelta (s : List Char) (h : K .timedeltaSyntax) : Only K (parseTimedelta s) := by
  unfold parseTimedelta; simp only; only
end

section
variable {K : EngErr → Prop} {env : Env} (hpa : env.PyArith) (dct : DecCtx) (hg : K .engine)
include hpa hg

theorem mo_foldLit {S : List Assignment} (e : Expr)
    (h : e.Made env (fun c => ∀ k, Raises env .none c k → K k) (S.map (·.name))) : MO K S (foldLit env dct e) := by
  unfold foldLit
  exact (mo_eval hpa dct .none hg e h).bind fun _ => .lift (only_litOf hg ..)

mutual
theorem mo_build : ∀ (raw : Raw) {S : List Assignment},
    (∀ c ∈ raw.constructs (S.map (·.name)), ∀ k, Refused env c k → K k) → MO K S (build env dct raw)
  | .lit v, S, h => by
    have := only_fromValue hg v
    simp only [build]
    exact .lift (by only)
  | .floatLit s, S, h => by
    simp only [build]
    exact .lift ((only_parseFloat _ (h (.floatLit s) (by simp [Raw.constructs]) _ .floatLit)).bind fun _ => .ok _)
  | .datetimeLit s, S, h => by
    simp only [build]
    exact .lift ((only_parseDatetime _ _ (h (.datetimeLit s) (by simp [Raw.constructs]) _ .datetimeLit)).bind fun _ => .ok _)
  | .timedeltaLit s, S, h => by
    simp only [build]
    exact .lift ((only_parseTimedelta _ (h (.timedeltaLit s) (by simp [Raw.constructs]) _ .timedeltaLit)).bind fun _ => .ok _)
  | .array xs, S, h => by
    simp only [build]
    exact (mo_buildList xs (by simpa [Raw.constructs] using h)).bind fun _ => .pure _
  | .set xs, S, h => by
    simp only [build]
    exact (mo_buildList xs (by simpa [Raw.constructs] using h)).bind fun _ => .pure _
  | .mapping kvs, S, h => by
    simp only [build]
    exact (mo_buildPairs kvs fun c hc => h c (by simp [Raw.constructs, hc])).bind fun _ => .lift (only_mkMapping hg _)
  | .bin op l r, S, h => by
    simp only [Raw.constructs, List.mem_cons, List.mem_append, or_imp, forall_and, forall_eq] at h
    simp only [build]
    refine (mo_build l h.2.1).bind fun l' => (mo_build r h.2.2).bind fun r' => ?_
    unfold mkBin
    refine (MO.lift (only_check env op l' r' (h.1 _ .operator) fun s n hop => h.1 _ (by subst hop; exact .pattern))).bind
      fun _ => ?_
    split
    · rename_i hr
      simp only [Bool.and_eq_true] at hr
      refine mo_foldLit hpa dct hg _ ?_
      simp only [Expr.Made]
      refine ⟨⟨false, fun k hk => ?_, by simp⟩, reduced_made _ _ hr.1, reduced_made _ _ hr.2⟩
      cases hk with
      | operator => exact h.1 _ .operator
      | pattern => exact h.1 _ .pattern
    · exact .pure _
  | .comp result var iterable cond, S, h => by
    simp only [Raw.constructs, List.mem_cons, List.mem_append, or_imp, forall_and, forall_eq] at h
    simp only [build]
    refine (mo_build iterable h.2.1).bind fun it => (MO.lift (only_iterVarType (h.1 _ (.constant (by simp) .comprehension)) _)).bind
      fun t => ?_
    refine MO.bind (MO.withScope _ ?_) fun p => ?_
    · exact (mo_build cond (by simpa using h.2.2.1)).bind fun _ => (mo_build result (by simpa using h.2.2.2)).bind fun _ => .pure _
    · exact .pure _
  | .contains c m, S, h => by
    simp only [Raw.constructs, List.mem_cons, List.mem_append, or_imp, forall_and, forall_eq] at h
    simp only [build]
    refine (mo_build c h.2.1).bind fun c' => (mo_build m h.2.2).bind fun m' => ?_
    unfold mkContains
    refine (MO.lift (only_checkContains (h.1 _ (.constant (by simp) .membership)) _ _)).bind fun _ => ?_
    split
    · rename_i hr
      simp only [Bool.and_eq_true] at hr
      refine (mo_eval hpa dct .none hg _ ?_).bind fun _ => .pure _
      simp only [Expr.Made]
      exact ⟨fun k hk => h.1 _ (.constant (by simp) hk), reduced_made _ _ hr.1, reduced_made _ _ hr.2⟩
    · exact .pure _
  | .getAttr o n safe, S, h => by
    simp only [Raw.constructs, List.mem_cons, List.mem_append, or_imp, forall_and, forall_eq] at h
    simp only [build]
    refine (mo_build o h.2).bind fun o' => ?_
    unfold mkGetAttr
    refine (MO.lift (only_checkAttr _ _ _ (h.1 _ .attribute))).bind fun _ => ?_
    split
    · rename_i hr
      refine (mo_foldLit hpa dct hg _ ?_).bind fun e => ?_
      · simp only [Expr.Made]
        exact ⟨fun k hk => h.1 _ (.constant (by simp) hk), reduced_made _ _ hr⟩
      · split
        · exact MO.ite (.pure _) (.pure _)
        · exact .pure _
    · exact .pure _
  | .getItem c i safe, S, h => by
    simp only [Raw.constructs, List.mem_cons, List.mem_append, or_imp, forall_and, forall_eq] at h
    simp only [build]
    refine (mo_build c h.2.1).bind fun c' => (mo_build i h.2.2).bind fun i' => ?_
    unfold mkGetItem
    refine (MO.lift (only_checkItem (h.1 _ (.constant (by simp) .item)) _ _ _ fun hs => h.1 _ (.constant (by simp)
      (by subst hs; exact .lookup)))).bind fun _ => ?_
    split
    · exact .pure _
    split
    · rename_i hr
      simp only [Bool.and_eq_true] at hr
      refine mo_foldLit hpa dct hg _ ?_
      simp only [Expr.Made]
      exact ⟨fun k hk => h.1 _ (.constant (by simp) hk), reduced_made _ _ hr.1, reduced_made _ _ hr.2⟩
    · exact .pure _
  | .getSlice c a b safe, S, h => by
    simp only [Raw.constructs, List.mem_cons, List.mem_append, or_imp, forall_and, forall_eq] at h
    simp only [build]
    refine (mo_build a h.2.2.1).bind fun a' => (mo_build b h.2.2.2).bind fun b' => (mo_build c h.2.1).bind fun c' => ?_
    unfold mkGetSlice
    refine (MO.lift (only_checkSlice (h.1 _ (.constant (by simp) .slice)) _ _)).bind fun _ => ?_
    split
    · rename_i hr
      simp only [Bool.and_eq_true] at hr
      refine mo_foldLit hpa dct hg _ ?_
      simp only [Expr.Made]
      exact ⟨fun k hk => h.1 _ (.constant (by simp) hk), reduced_made _ _ hr.1.1, reduced_made _ _ hr.1.2, reduced_made _ _ hr.2⟩
    · exact .pure _
  | .sym n b, S, h => by
    simp only [Raw.constructs, List.mem_singleton, forall_eq] at h
    simp only [build, mkSym]
    refine MO.bind (MO.modify fun _ => rfl) fun _ => (mo_resolveType env n b h).bind fun _ => .pure _
  | .call f args, S, h => by
    simp only [Raw.constructs, List.mem_cons, List.mem_append, or_imp, forall_and, forall_eq] at h
    simp only [build]
    refine (mo_build f h.2.1).bind fun f' => (mo_buildList args h.2.2).bind fun as => ?_
    have hv := only_validateCall (h.1 _ (.constant (by simp) .notFunction)) (h.1 _ (.constant (by simp) .call)) f'.rt
      (Expr.rts as)
    have hrest : MO K S (if (f'.reduced && Expr.reducedList as) = true then foldLit env dct (.call f' as)
        else Pure.pure (.call f' as)) := by
      split
      · rename_i hr
        simp only [Bool.and_eq_true] at hr
        refine mo_foldLit hpa dct hg _ ?_
        simp only [Expr.Made]
        exact ⟨fun k hk => h.1 _ (.constant (by simp) hk), reduced_made _ _ hr.1, reduceds_made _ _ hr.2⟩
      · exact .pure _
    unfold mkCall
    by_cases hc : DataType.eq f'.rt .undefined = true
    · simp only [if_pos hc]
      exact hrest
    · simp only [if_neg hc]
      exact (MO.lift hv).bind fun _ => hrest
  | .tern c t f, S, h => by
    simp only [Raw.constructs, List.mem_cons, List.mem_append, or_imp, forall_and, forall_eq] at h
    simp only [build]
    exact (mo_build c h.1).bind fun _ => (mo_build t h.2.1).bind fun _ => (mo_build f h.2.2).bind fun _ => .pure _
  | .not e, S, h => by
    simp only [Raw.constructs] at h
    simp only [build]
    refine (mo_build e h).bind fun e' => ?_
    unfold mkNot
    split
    · rename_i hr
      refine (mo_eval hpa dct .none hg _ ?_).bind fun _ => .pure _
      simp only [Expr.Made]
      exact reduced_made _ _ hr
    · exact .pure _
  | .neg e, S, h => by
    simp only [Raw.constructs, List.mem_cons, or_imp, forall_and, forall_eq] at h
    simp only [build]
    refine (mo_build e h.2).bind fun e' => ?_
    have hn : ∀ v t, MO K S (eval env dct .none (.neg (.lit v t))) := fun v t => mo_eval hpa dct .none hg _ (by
      simp only [Expr.Made]
      exact ⟨fun k hk => h.1 _ (.constant (by simp) hk), trivial⟩)
    unfold mkNeg
    split
    · split
      · exact (hn _ _).bind fun _ => .pure _
      · exact (hn _ _).bind fun _ => .pure _
      · exact .mismatch (h.1 _ (.constant (by simp) .minus))
    · exact .pure _
theorem mo_buildList : ∀ (xs : List Raw) {S : List Assignment},
    (∀ c ∈ Raw.constructsList (S.map (·.name)) xs, ∀ k, Refused env c k → K k) → MO K S (buildList env dct xs)
  | [], S, h => by simp only [buildList]; exact .pure _
  | x :: xs, S, h => by
    simp only [Raw.constructsList, List.mem_append, or_imp, forall_and] at h
    simp only [buildList]
    exact (mo_build x h.1).bind fun _ => (mo_buildList xs h.2).bind fun _ => .pure _
theorem mo_buildPairs : ∀ (xs : List (Raw × Raw)) {S : List Assignment},
    (∀ c ∈ Raw.constructsPairs (S.map (·.name)) xs, ∀ k, Refused env c k → K k) → MO K S (buildPairs env dct xs)
  | [], S, h => by simp only [buildPairs]; exact .pure _
  | (k, v) :: xs, S, h => by
    simp only [Raw.constructsPairs, List.mem_append, or_imp, forall_and] at h
    simp only [buildPairs]
    exact (mo_build k h.1).bind fun _ => (mo_build v h.2.1).bind fun _ => (mo_buildPairs xs h.2.2).bind fun _ => .pure _
end
end

/-! ### Rules -/

/-- **C66.** Every engine error that evaluating a rule raises is one that a construct written in the rule can raise, or a plain
EngineError. -/
theorem evaluate_errors (codec : LitCodec) (env : Env) (hpa : env.PyArith) (acts : List TextAct) (dct : DecCtx) (text : String)
    (p' : Proc) (e : Expr) (h : (runTexts codec env acts Proc.new).rule codec env dct text = (.ok e, p')) (raw : Raw)
    (cm : Option String) (line : Nat) (hp : (parseText codec line text).out = .ok (raw, cm)) (thing : Value) (q : Proc) (k : EngErr)
    (he : (q.evaluate env e thing).1 = .error (.eng k)) :
    k = .engine ∨ ∃ c ∈ raw.constructs [], Raises env thing c k := by
  have hs0 := runTexts_scopes codec env acts
  generalize runTexts codec env acts Proc.new = p at h hs0
  simp only [Proc.rule] at h
  rw [parseRule_line codec env dct p.line line] at h
  simp only [parseRule, hp] at h
  have hb := congrArg Prod.fst h
  have hs := congrArg (fun x => x.2.st) h
  simp only at hb hs
  have hbu := build_built raw (e := e) (s' := p'.st) (Prod.ext hb hs : construct env dct raw p.st = _)
  rw [hs0] at hbu
  have hm := built_made (P := fun c => ∀ k, Raises env thing c k → k = .engine ∨ ∃ c ∈ raw.constructs [], Raises env thing c k)
    raw (Γ := []) (fun c hc k hk => .inr ⟨c, hc, hk⟩) hbu
  exact ((mo_eval hpa env.decCtx thing (K := fun k => k = .engine ∨ ∃ c ∈ raw.constructs [], Raises env thing c k) (.inl rfl) e
    (S := []) hm).out q.st.reset rfl).1 k he

/-- **C66.** Every engine error that making a rule raises says that the text is no rule, or is one that a construct written in it
can raise, or a plain EngineError. -/
theorem rule_errors (codec : LitCodec) (env : Env) (hpa : env.PyArith) (acts : List TextAct) (dct : DecCtx) (text : String)
    (k : EngErr) (h : ((runTexts codec env acts Proc.new).rule codec env dct text).1 = .error (.eng k)) (line : Nat) :
    match (parseText codec line text).out with
    | .error _ => k = .ruleSyntax ∨ k = .stringSyntax ∨ k = .bytesSyntax
    | .ok (raw, _) => k = .engine ∨ ∃ c ∈ raw.constructs [], Refused env c k := by
  have hs0 := runTexts_scopes codec env acts
  generalize runTexts codec env acts Proc.new = p at h hs0
  simp only [Proc.rule] at h
  rw [parseRule_line codec env dct p.line line] at h
  unfold parseRule at h
  cases hx : (parseText codec line text).out with
  | error err =>
    rw [hx] at h
    simp only [M.throw] at h
    cases err <;> simp only [PErr.toErr] at h <;> cases h <;> simp
  | ok v =>
    obtain ⟨raw, cm⟩ := v
    rw [hx] at h
    simp only
    exact ((mo_build hpa dct (K := fun k => k = .engine ∨ ∃ c ∈ raw.constructs [], Refused env c k) (.inl rfl) raw (S := [])
      (fun c hc k hk => .inr ⟨c, hc, hk⟩)).out p.st hs0).1 k h

/-- **Specification.** The only engine errors of the resolver are SymbolResolutionErrors. -/
def Env.PlainResolver (env : Env) : Prop := ∀ o n k, env.resolver o n = .error (.eng k) → ∃ m, k = .symbolResolution m

/-- the resolver for dictionaries is one (engine.py 75-89) -/
theorem resolveItem_plain (env : Env) (off : TzDb) (h : env.resolver = resolveItem off) : env.PlainResolver := by
  intro o n k hk
  rw [h] at hk
  unfold resolveItem at hk
  repeat' split at hk
  all_goals cases hk
  all_goals exact ⟨_, rfl⟩

section
variable (codec : LitCodec) (env : Env) (hpa : env.PyArith) (hr : env.PlainResolver) (acts : List TextAct) (dct : DecCtx)
  (text : String) (p' : Proc) (e : Expr) (h : (runTexts codec env acts Proc.new).rule codec env dct text = (.ok e, p'))
  (raw : Raw) (cm : Option String) (line : Nat) (hp : (parseText codec line text).out = .ok (raw, cm)) (thing : Value) (q : Proc)
include hpa hr h hp

/-- **C66.** What evaluation raises is an EvaluationError of some kind, a RegexSyntaxError or a plain EngineError (or comes from the
Python library): no syntax error of a literal is left for later. -/
theorem evaluate_error_classes (k : EngErr) (he : (q.evaluate env e thing).1 = .error (.eng k)) :
    k.isEvaluation = true ∨ k = .regexSyntax ∨ k = .engine := by
  rcases evaluate_errors codec env hpa acts dct text p' e h raw cm line hp thing q k he with rfl | ⟨c, -, hc⟩
  · exact .inr (.inr rfl)
  · cases hc with
    | pattern => exact .inr (.inl rfl)
    | attributeResolver hk hn =>
      obtain ⟨m, rfl⟩ := hr _ _ _ hk
      exact absurd rfl (hn m)
    | resolver hk _ =>
      obtain ⟨m, rfl⟩ := hr _ _ _ hk
      exact .inl rfl
    | _ => exact .inl rfl

/-- **C66.** Only item access, other than the safe one, raises LookupErrors. -/
theorem lookup_error_origin (he : (q.evaluate env e thing).1 = .error (.eng .lookup)) : .item false ∈ raw.constructs [] := by
  rcases evaluate_errors codec env hpa acts dct text p' e h raw cm line hp thing q _ he with h | ⟨c, hc, hk⟩
  · cases h
  · cases hk with
    | lookup => exact hc
    | attributeResolver hk hn => obtain ⟨m, hm⟩ := hr _ _ _ hk; cases hm
    | resolver hk _ => obtain ⟨m, hm⟩ := hr _ _ _ hk; cases hm

/-- **C66.** Only calls raise FunctionCallErrors. -/
theorem call_error_origin (he : (q.evaluate env e thing).1 = .error (.eng .functionCall)) : .call ∈ raw.constructs [] := by
  rcases evaluate_errors codec env hpa acts dct text p' e h raw cm line hp thing q _ he with h | ⟨c, hc, hk⟩
  · cases h
  · cases hk with
    | call => exact hc
    | attributeResolver hk hn => obtain ⟨m, hm⟩ := hr _ _ _ hk; cases hm
    | resolver hk _ => obtain ⟨m, hm⟩ := hr _ _ _ hk; cases hm

/-- **C66.** Only the regular expression operators raise RegexSyntaxErrors, and not if the pattern is a string literal. -/
theorem regex_error_origin (he : (q.evaluate env e thing).1 = .error (.eng .regexSyntax)) :
    ∃ search negate, .operator (.fuzzy search negate) false ∈ raw.constructs [] := by
  rcases evaluate_errors codec env hpa acts dct text p' e h raw cm line hp thing q _ he with h | ⟨c, hc, hk⟩
  · cases h
  · cases hk with
    | pattern => exact ⟨_, _, hc⟩
    | attributeResolver hk hn => obtain ⟨m, hm⟩ := hr _ _ _ hk; cases hm
    | resolver hk _ => obtain ⟨m, hm⟩ := hr _ _ _ hk; cases hm
end

/-! ### Rules that always have a value -/

mutual
/-- **Specification.** A rule of literals, array literals, names, `==`, `!=`, `and`, `or`, `not` and `? :` only. -/
def Raw.simple : Raw → Bool
  | .lit _ | .floatLit _ | .datetimeLit _ | .timedeltaLit _ | .sym _ false => true
  | .array xs => Raw.simpleList xs
  | .bin .and l r | .bin .or l r | .bin .eq l r | .bin .ne l r => l.simple && r.simple
  | .tern c t f => c.simple && t.simple && f.simple
  | .not e => e.simple
  | _ => false
def Raw.simpleList : List Raw → Bool
  | [] => true
  | x :: xs => x.simple && Raw.simpleList xs
end

mutual
/-- the nodes of such a rule -/
def Expr.Simple (env : Env) (thing : Value) : Expr → Prop
  | .lit .. => True
  | .sym n rt b => rt = .undefined ∧ b = false ∧ ∃ v, env.resolver thing n = .ok v
  | .array xs => Expr.SimpleList env thing xs
  | .bin op l r => op.total = true ∧ l.Simple env thing ∧ r.Simple env thing
  | .tern c t f => c.Simple env thing ∧ t.Simple env thing ∧ f.Simple env thing
  | .not e => e.Simple env thing
  | _ => False
def Expr.SimpleList (env : Env) (thing : Value) : List Expr → Prop
  | [] => True
  | x :: xs => x.Simple env thing ∧ Expr.SimpleList env thing xs
end

/-- the computation returns a value when no variables are bound -/
structure Returns {α : Type} (m : M α) : Prop where
  out : ∀ s, s.scopes = [] → ∃ v s', m s = (.ok v, s') ∧ s'.scopes = []

theorem Returns.pure {α : Type} (a : α) : Returns (Pure.pure a : M α) := ⟨fun s hs => ⟨a, s, rfl, hs⟩⟩
theorem Returns.bind {α β : Type} {m : M α} {f : α → M β} (hm : Returns m) (hf : ∀ a, Returns (f a)) : Returns (m >>= f) := by
  refine ⟨fun s hs => ?_⟩
  obtain ⟨v, s', h, hs'⟩ := hm.out s hs
  rw [M.bind_apply, h]
  exact (hf v).out s' hs'

mutual
theorem simple_returns {env : Env} {dc : DecCtx} {thing : Value} : ∀ e : Expr, e.Simple env thing → Returns (eval env dc thing e)
  | .lit v _, _ => by simp only [eval]; exact .pure _
  | .sym n rt b, h => by
    simp only [Expr.Simple] at h
    obtain ⟨rfl, rfl, v, hv⟩ := h
    simp only [eval]
    refine ⟨fun s hs => ⟨newValue env v, { s with log := s.log ++ [.resolve thing n] }, ?_, hs⟩⟩
    simp [evalSymbol, M.bind_apply, M.catchErr, ctxResolve, scopeLookup, hs, hv, M.lift, checkSymbol, DataType.eq]
  | .array xs, h => by
    simp only [Expr.Simple] at h
    simp only [eval]
    exact (simples_return xs h).bind fun _ => .pure _
  | .bin op l r, h => by
    simp only [Expr.Simple] at h
    have hl := simple_returns (dc := dc) l h.2.1
    have hr := simple_returns (dc := dc) r h.2.2
    simp only [eval]
    unfold evalBin
    cases op <;> simp only [BinOp.total, Bool.false_eq_true, false_and] at h <;> simp only
    · refine hl.bind fun a => ?_
      split
      · exact hr.bind fun _ => .pure _
      · exact .pure _
    · refine hl.bind fun a => ?_
      split
      · exact .pure _
      · exact hr.bind fun _ => .pure _
    · exact hl.bind fun a => hr.bind fun _ => .pure _
    · exact hl.bind fun a => hr.bind fun _ => .pure _
  | .tern c t f, h => by
    simp only [Expr.Simple] at h
    simp only [eval]
    refine (simple_returns c h.1).bind fun _ => ?_
    split
    · exact simple_returns t h.2.1
    · exact simple_returns f h.2.2
  | .not e, h => by
    simp only [Expr.Simple] at h
    simp only [eval]
    exact (simple_returns e h).bind fun _ => .pure _
  | .set _, h | .mapping _, h | .comp .., h | .contains .., h | .getAttr .., h | .getItem .., h | .getSlice .., h | .call .., h
  | .neg _, h => by simp only [Expr.Simple] at h
theorem simples_return {env : Env} {dc : DecCtx} {thing : Value} : ∀ es : List Expr, Expr.SimpleList env thing es →
    Returns (seqM (evals env dc thing es))
  | [], _ => by simp only [evals, seqM]; exact .pure _
  | x :: xs, h => by
    simp only [Expr.SimpleList] at h
    simp only [evals, seqM]
    exact (simple_returns x h.1).bind fun _ => (simples_return xs h.2).bind fun _ => .pure _
end

theorem folds_total {env : Env} {dct : DecCtx} {Γ : List Assignment} {op : BinOp} {l r e : Expr} (ht : op.total = true)
    (h : Folds env dct Γ (.bin op l r) e) : ∃ v t, e = .lit v t := by
  obtain ⟨v, ⟨s, s', -, hv⟩, hl⟩ := h
  simp only [litOf, except_bind_ok, Except.ok.injEq] at hl
  obtain ⟨t, -, rfl⟩ := hl
  have hb : ∃ b, v = .bool b := by
    simp only [eval] at hv
    cases op <;> simp only [BinOp.total, Bool.false_eq_true] at ht <;>
      simp only [evalBin, M.bind_eq_ok, M.pure_eq_ok] at hv
    · obtain ⟨a, s1, -, hv⟩ := hv
      rw [M.ite_app] at hv
      split at hv
      · simp only [M.bind_eq_ok, M.pure_eq_ok] at hv
        obtain ⟨b, s2, -, rfl, -⟩ := hv
        exact ⟨_, rfl⟩
      · simp only [M.pure_eq_ok] at hv
        exact ⟨_, hv.1.symm⟩
    · obtain ⟨a, s1, -, hv⟩ := hv
      rw [M.ite_app] at hv
      split at hv
      · simp only [M.pure_eq_ok] at hv
        exact ⟨_, hv.1.symm⟩
      · simp only [M.bind_eq_ok, M.pure_eq_ok] at hv
        obtain ⟨b, s2, -, rfl, -⟩ := hv
        exact ⟨_, rfl⟩
    all_goals
      obtain ⟨a, s1, -, b, s2, -, rfl, -⟩ := hv
      exact ⟨_, rfl⟩
  obtain ⟨b, rfl⟩ := hb
  exact ⟨_, _, rfl⟩

mutual
theorem built_simple {env : Env} {dct : DecCtx} {thing : Value} (hty : env.typeResolver = noTypes) : ∀ (raw : Raw) {e : Expr},
    (∀ n, ⟨n, false, false⟩ ∈ raw.uses [] → ∃ v, env.resolver thing n = .ok v) → raw.simple = true → Built env dct [] raw e →
    e.Simple env thing
  | .lit _, e, hn, hs, h | .floatLit _, e, hn, hs, h | .datetimeLit _, e, hn, hs, h | .timedeltaLit _, e, hn, hs, h => by
    simp only [Built] at h
    obtain ⟨_, _, rfl⟩ := h
    simp [Expr.Simple]
  | .sym n false, e, hn, hs, h => by
    simp only [Built, symType, scopeLookup, hty, noTypes] at h
    obtain ⟨t, ht, rfl⟩ := h
    simp only [Bool.false_eq_true, if_false, List.find?_nil, Except.ok.injEq] at ht
    simp only [Expr.Simple]
    exact ⟨ht.symm, trivial, hn n (by simp [Raw.uses])⟩
  | .array xs, e, hn, hs, h => by
    simp only [Raw.simple, Bool.and_eq_true, Bool.false_eq_true] at hs
    simp only [Built] at h
    obtain ⟨es, h1, rfl⟩ := h
    simp only [Expr.Simple]
    exact builts_simple hty xs (by simpa [Raw.uses] using hn) hs h1
  | .bin op l r, e, hn, hs, h => by
    have ht : op.total = true ∧ l.simple = true ∧ r.simple = true := by
      cases op <;> simp only [Raw.simple, Bool.and_eq_true, Bool.false_eq_true] at hs <;> exact ⟨rfl, hs⟩
    simp only [Built] at h
    obtain ⟨l', r', h1, h2, -, h3⟩ := h
    simp only [Raw.uses, List.mem_append, or_imp, forall_and] at hn
    split at h3
    · obtain ⟨v, t, rfl⟩ := folds_total ht.1 h3
      simp [Expr.Simple]
    · subst h3
      simp only [Expr.Simple]
      exact ⟨ht.1, built_simple hty l hn.1 ht.2.1 h1, built_simple hty r hn.2 ht.2.2 h2⟩
  | .tern c t f, e, hn, hs, h => by
    simp only [Raw.simple, Bool.and_eq_true, Bool.false_eq_true] at hs
    simp only [Built] at h
    obtain ⟨c', t', f', h1, h2, h3, rfl⟩ := h
    simp only [Raw.uses, List.mem_append, or_imp, forall_and] at hn
    have i1 := built_simple hty c hn.1 hs.1.1 h1
    have i2 := built_simple hty t hn.2.1 hs.1.2 h2
    have i3 := built_simple hty f hn.2.2 hs.2 h3
    unfold mkTern
    split
    · split
      · exact i2
      · exact i3
    · simp only [Expr.Simple]
      exact ⟨i1, i2, i3⟩
  | .not x, e, hn, hs, h => by
    simp only [Raw.simple, Bool.and_eq_true, Bool.false_eq_true] at hs
    simp only [Built] at h
    obtain ⟨x', h1, h3⟩ := h
    simp only [Raw.uses] at hn
    split at h3
    · obtain ⟨v, -, rfl⟩ := h3
      simp [Expr.Simple]
    · subst h3
      simp only [Expr.Simple]
      exact built_simple hty x hn hs h1
  | .sym _ true, _, _, hs, _ | .set _, _, _, hs, _ | .mapping _, _, _, hs, _ | .comp .., _, _, hs, _ | .contains .., _, _, hs, _
  | .getAttr .., _, _, hs, _ | .getItem .., _, _, hs, _ | .getSlice .., _, _, hs, _ | .call .., _, _, hs, _ | .neg _, _, _, hs, _ => by
    simp only [Raw.simple, Bool.and_eq_true, Bool.false_eq_true] at hs
theorem builts_simple {env : Env} {dct : DecCtx} {thing : Value} (hty : env.typeResolver = noTypes) : ∀ (xs : List Raw)
    {es : List Expr}, (∀ n, ⟨n, false, false⟩ ∈ Raw.usesList [] xs → ∃ v, env.resolver thing n = .ok v) → Raw.simpleList xs = true →
    BuiltList env dct [] xs es → Expr.SimpleList env thing es
  | [], es, hn, hs, h => by
    simp only [BuiltList] at h
    subst h; simp [Expr.SimpleList]
  | x :: xs, es, hn, hs, h => by
    simp only [Raw.simpleList, Bool.and_eq_true] at hs
    simp only [BuiltList] at h
    obtain ⟨e, es', h1, h2, rfl⟩ := h
    simp only [Raw.usesList, List.mem_append, or_imp, forall_and] at hn
    simp only [Expr.SimpleList]
    exact ⟨built_simple hty x hn.1 hs.1 h1, builts_simple hty xs hn.2 hs.2 h2⟩
end

/-- **C66.** A rule of literals, arrays, names, `==`, `!=`, `and`, `or`, `not` and `? :` has a value for every thing that provides
its names, whatever they are. -/
theorem simple_rules_return (codec : LitCodec) (env : Env) (hty : env.typeResolver = noTypes) (acts : List TextAct) (dct : DecCtx)
    (text : String) (p' : Proc) (e : Expr) (h : (runTexts codec env acts Proc.new).rule codec env dct text = (.ok e, p'))
    (raw : Raw) (cm : Option String) (line : Nat) (hp : (parseText codec line text).out = .ok (raw, cm)) (hs : raw.simple = true)
    (thing : Value) (hn : ∀ n, ⟨n, false, false⟩ ∈ raw.uses [] → ∃ v, env.resolver thing n = .ok v) (q : Proc) :
    ∃ v, (q.evaluate env e thing).1 = .ok v := by
  have hs0 := runTexts_scopes codec env acts
  generalize runTexts codec env acts Proc.new = p at h hs0
  simp only [Proc.rule] at h
  rw [parseRule_line codec env dct p.line line] at h
  simp only [parseRule, hp] at h
  have hb := congrArg Prod.fst h
  have hst := congrArg (fun x => x.2.st) h
  simp only at hb hst
  have hbu := build_built raw (e := e) (s' := p'.st) (Prod.ext hb hst : construct env dct raw p.st = _)
  rw [hs0] at hbu
  obtain ⟨v, s', hv, -⟩ := (simple_returns (dc := env.decCtx) e (built_simple hty raw hn hs hbu)).out q.st.reset rfl
  refine ⟨v, ?_⟩
  show (eval env env.decCtx thing e q.st.reset).1 = .ok v
  rw [hv]

/-- every row of the tables is met: rules that raise each of the errors when they are evaluated … -/
theorem evaluate_errors_witness :
    let run := fun (text : String) (kvs : List (String × Value)) => Proc.new.run plainCodec sampleEnv text (dictOf kvs)
    run "a < 1" [("a", .str "x")] = .error (.eng .evaluation) ∧
    run "a =~ b" [("a", .str "x"), ("b", .str "(")] = .error (.eng .regexSyntax) ∧
    run "[x for x in a]" [("a", .bool true)] = .error (.eng .evaluation) ∧
    run "1 in a" [("a", .str "x")] = .error (.eng .evaluation) ∧
    run "-a" [("a", .str "x")] = .error (.eng .evaluation) ∧
    run "a['x']" [("a", .str "y")] = .error (.eng .evaluation) ∧
    run "a&['x']" [("a", .str "y")] = .error (.eng .evaluation) ∧
    run "a[7]" [("a", .tuple [])] = .error (.eng .lookup) ∧
    run "a&[7]" [("a", .tuple [])] = .ok .none ∧
    run "a[0:1]" [("a", .none)] = .error (.eng .evaluation) ∧
    run "a(1)" [("a", .bool true)] = .error (.eng .evaluation) ∧
    run "a(1)" [("a", .userFn 2)] = .error (.eng .functionCall) ∧
    run "a.x" [("a", .bool true)] = .error (.eng (.attributeResolution "x")) ∧
    run "a.zone_name" [("a", .datetime 63713433600000000 (some 0))] = .error (.eng (.attributeType "zone_name")) ∧
    run "a.to_int" [("a", .str "1.5")] = .error (.eng .evaluation) ∧
    run "a" [] = .error (.eng (.symbolResolution "a")) ∧
    run "$a" [] = .error (.eng (.symbolResolution "a")) ∧
    run "{a: 1}" [("a", .set [])] = .error (.eng .engine) ∧
    Proc.new.run plainCodec { sampleEnv with typeResolver := typeResolverFromDict [("a", .float)] } "a"
      (dictOf [("a", .str "x")]) = .error (.eng (.symbolType "a")) ∧
    Proc.new.run plainCodec { sampleEnv with typeResolver := typeResolverFromDict [("a", .float)] } "b"
      (dictOf [("b", .str "x")]) = .error (.eng (.symbolResolution "b")) := by
  refine ⟨?_, ?_, ?_, ?_, ?_, ?_, ?_, ?_, ?_, ?_, ?_, ?_, ?_, ?_, ?_, ?_, ?_, ?_, ?_, ?_⟩ <;> decide +kernel

/-- … and when they are made -/
theorem rule_errors_witness :
    let made := fun (text : String) => match (Proc.new.rule plainCodec sampleEnv .default text).1 with
      | .ok _ => none
      | .error e => some e
    made "1 +" = some (.eng .ruleSyntax) ∧
    made "b'\\x'" = some (.eng .bytesSyntax) ∧
    made "$abs == 1" = some (.eng .evaluation) ∧
    made "a =~ '('" = some (.eng .regexSyntax) ∧
    made "01" = some (.eng .floatSyntax) ∧
    made "d'x'" = some (.eng .datetimeSyntax) ∧
    made "t'P'" = some (.eng .timedeltaSyntax) ∧
    made "'x'.foo" = some (.eng (.attributeResolution "foo")) ∧
    made "[1][2]" = some (.eng .lookup) ∧
    made "$abs(true)" = some (.eng .functionCall) ∧
    made "{{1}: 1}" = some (.eng .engine) ∧
    made "(a == 1 and b != 'x' or not c) ? [d] : 2" = none := by
  refine ⟨?_, ?_, ?_, ?_, ?_, ?_, ?_, ?_, ?_, ?_, ?_, ?_⟩ <;> decide +kernel

/-- a value whatever the names stand for -/
theorem simple_rules_witness :
    let text := "(a == 1 and b != 'x' or not c) ? [d] : 2"
    (match (parseText plainCodec 1 text).out with
      | .ok (raw, _) => raw.simple
      | .error _ => false) = true ∧
    Proc.new.run plainCodec sampleEnv text (dictOf [("a", .set []), ("b", .obj 7), ("c", .none), ("d", .bytes [1])]) =
      .ok (.tuple [.bytes [1]]) := by
  refine ⟨?_, ?_⟩ <;> decide +kernel

/-- the sample context's arithmetic raises no engine errors, and its resolver only SymbolResolutionErrors -/
example : sampleEnv.PyArith ∧ sampleEnv.PlainResolver :=
  ⟨fun _ _ _ _ h => by simp [sampleEnv] at h, resolveItem_plain sampleEnv _ rfl⟩

end RE
