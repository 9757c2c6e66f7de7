import Verif.Props.Accept
import Verif.Props.Sound
import Verif.Props.Laws
import Verif.Props.ComposeMore

/-!
# Fewer types (C79)

What a rule is with and without knowledge of the types of its names.
-/

set_option linter.unusedSectionVars false

namespace RE

/-! ### Specification -/

/-- **Specification.** `Vaguer k a b`: `a` is `b`, or unknown, or, up to `k` collections (or the argument of a
function) deep, the same kind of collection with vaguer members. -/
def Vaguer : Nat → DataType → DataType → Prop
  | 0, a, b => a = .undefined ∨ a = b
  | k + 1, a, b => a = .undefined ∨ a = b ∨
      (∃ u v n, a = .array u n ∧ b = .array v n ∧ Vaguer k u v) ∨
      (∃ u v n, a = .set u n ∧ b = .set v n ∧ Vaguer k u v) ∨
      (∃ u v u' v' n, a = .mapping u u' n ∧ b = .mapping v v' n ∧ Vaguer k u v ∧ Vaguer k u' v') ∨
      (∃ u v name r m, a = .function name r (some [u]) m ∧ b = .function name r (some [v]) m ∧ Vaguer k u v)

mutual
/-- **Specification.** The rule has no names. -/
def Raw.closed : Raw → Bool
  | .lit _ | .floatLit _ | .datetimeLit _ | .timedeltaLit _ => true
  | .array xs | .set xs => Raw.closedList xs
  | .mapping kvs => Raw.closedPairs kvs
  | .bin _ l r => l.closed && r.closed
  | .comp .. => false
  | .contains c m => c.closed && m.closed
  | .getAttr o _ _ => o.closed
  | .getItem c i _ => c.closed && i.closed
  | .getSlice c a b _ => c.closed && a.closed && b.closed
  | .sym .. => false
  | .call f args => f.closed && Raw.closedList args
  | .tern c t f => c.closed && t.closed && f.closed
  | .not e | .neg e => e.closed
/-- members -/
def Raw.closedList : List Raw → Bool
  | [] => true
  | x :: xs => x.closed && Raw.closedList xs
/-- items -/
def Raw.closedPairs : List (Raw × Raw) → Bool
  | [] => true
  | (k, v) :: xs => k.closed && v.closed && Raw.closedPairs xs
end

/-- **Specification.** How deep the type of an attribute of a collection can be partly known: the members of `to_ary` and
`to_set` are those of the collection, and the collection's type is the type of the argument of `starts_with` and `ends_with`. -/
def attrDepth (k : Nat) (name : String) : Nat :=
  if k = 0 then 0
  else if name = "to_ary" ∨ name = "to_set" then k
  else if name = "starts_with" ∨ name = "ends_with" then k + 1
  else 0

/-- **Specification.** How deep the type of the part can be partly known when the types of names are known or not:
a literal with a name in it is a collection whose members' type may not be known; a comprehension makes it one deeper;
an item of it is one less deep.  `vars` are the depths of the variables. -/
def Raw.depth (vars : List (String × Nat)) : Raw → Nat
  | .array xs | .set xs => if Raw.closedList xs then 0 else 1
  | .mapping kvs => if Raw.closedPairs kvs then 0 else 1
  | .comp result var iterable _ => result.depth ((var, iterable.depth vars - 1) :: vars) + 1
  | .getAttr o name _ => attrDepth (o.depth vars) name
  | .getItem c _ _ => c.depth vars - 1
  | .getSlice c _ _ _ => c.depth vars
  | .neg e => e.depth vars
  | .sym n false => ((vars.filter (·.1 == n)).map (·.2)).foldr max 0
  | _ => 0

mutual
/-- **Specification.** The rules the guarantee is about: no safe item access (`a&[b]`); the members of literals of
collections, the branches of a ternary and the operands of `<`, `<=`, `>` and `>=` are no collections whose type can be
partly known; and no variable of a comprehension is a collection whose type can be partly known two deep. -/
def Raw.Even (vars : List (String × Nat)) : Raw → Prop
  | .lit _ | .floatLit _ | .datetimeLit _ | .timedeltaLit _ => True
  | .array xs | .set xs => Raw.EvenList vars xs
  | .mapping kvs => Raw.EvenPairs vars kvs
  | .bin op l r => l.Even vars ∧ r.Even vars ∧
      match op with
      | .cmp _ => l.depth vars = 0 ∧ r.depth vars = 0
      | _ => True
  | .comp result var iterable cond => iterable.Even vars ∧
      result.Even ((var, iterable.depth vars - 1) :: vars) ∧ cond.Even ((var, iterable.depth vars - 1) :: vars)
  | .contains c m => c.Even vars ∧ m.Even vars
  | .getAttr o _ _ => o.Even vars
  | .getItem c i safe => safe = false ∧ c.Even vars ∧ i.Even vars
  | .getSlice c a b _ => c.Even vars ∧ a.Even vars ∧ b.Even vars
  | .sym n b => (Raw.sym n b).depth vars ≤ 1
  | .call f args => f.Even vars ∧ Raw.EvenArgs vars args
  | .tern c t f => c.Even vars ∧ t.Even vars ∧ f.Even vars ∧ t.depth vars = 0 ∧ f.depth vars = 0
  | .not e | .neg e => e.Even vars
/-- members of a literal -/
def Raw.EvenList (vars : List (String × Nat)) : List Raw → Prop
  | [] => True
  | x :: xs => x.Even vars ∧ x.depth vars = 0 ∧ Raw.EvenList vars xs
/-- items of a literal -/
def Raw.EvenPairs (vars : List (String × Nat)) : List (Raw × Raw) → Prop
  | [] => True
  | (k, v) :: xs => k.Even vars ∧ k.depth vars = 0 ∧ v.Even vars ∧ v.depth vars = 0 ∧ Raw.EvenPairs vars xs
/-- arguments of a call -/
def Raw.EvenArgs (vars : List (String × Nat)) : List Raw → Prop
  | [] => True
  | x :: xs => x.Even vars ∧ Raw.EvenArgs vars xs
end

/-! ### Vaguer types -/

theorem Vaguer.refl (k : Nat) (t : DataType) : Vaguer k t t := by
  cases k <;> simp [Vaguer]

theorem Vaguer.unknown (k : Nat) (t : DataType) : Vaguer k .undefined t := by
  cases k <;> simp [Vaguer]

theorem Vaguer.succ : ∀ {k : Nat} {a b : DataType}, Vaguer k a b → Vaguer (k + 1) a b
  | 0, a, b, h => by
    rcases h with h | h
    · exact .inl h
    · exact .inr (.inl h)
  | k + 1, a, b, h => by
    rcases h with h | h | ⟨u, v, n, h1, h2, h⟩ | ⟨u, v, n, h1, h2, h⟩ | ⟨u, v, u', v', n, h1, h2, h, h'⟩ |
      ⟨u, v, nm, r, m, h1, h2, h⟩
    · exact .inl h
    · exact .inr (.inl h)
    · exact .inr (.inr (.inl ⟨u, v, n, h1, h2, h.succ⟩))
    · exact .inr (.inr (.inr (.inl ⟨u, v, n, h1, h2, h.succ⟩)))
    · exact .inr (.inr (.inr (.inr (.inl ⟨u, v, u', v', n, h1, h2, h.succ, h'.succ⟩))))
    · exact .inr (.inr (.inr (.inr (.inr ⟨u, v, nm, r, m, h1, h2, h.succ⟩))))

theorem Vaguer.mono {k l : Nat} {a b : DataType} (h : Vaguer k a b) (hl : k ≤ l) : Vaguer l a b := by
  induction hl with
  | refl => exact h
  | step _ ih => exact ih.succ

theorem compat_comm (a b : DataType) : DataType.compat a b = DataType.compat b a := dataType_compat_symm a b

theorem compat_undef (b : DataType) : DataType.compat .undefined b = true := (dataType_compat_undefined b).1

/-- what is compatible stays compatible with less knowledge -/
theorem Vaguer.compat : ∀ {k : Nat} {a b : DataType}, Vaguer k a b → ∀ {c : DataType},
    DataType.compat b c = true → DataType.compat a c = true
  | 0, a, b, h, c, hc => by
    rcases h with rfl | rfl
    · exact compat_undef c
    · exact hc
  | k + 1, a, b, h, c, hc => by
    rcases h with rfl | rfl | ⟨u, v, n, rfl, rfl, h⟩ | ⟨u, v, n, rfl, rfl, h⟩ | ⟨u, v, u', v', n, rfl, rfl, h, h'⟩ |
      ⟨u, v, nm, r, m, rfl, rfl, h⟩
    · exact compat_undef c
    · exact hc
    · cases c <;> simp_all [DataType.compat]
      exact h.compat hc
    · cases c <;> simp_all [DataType.compat]
      exact h.compat hc
    · cases c <;> simp_all [DataType.compat]
      exact ⟨h.compat hc.1, h'.compat hc.2⟩
    · cases c with
      | function n2 r2 a2 m2 =>
        simp only [DataType.compat, Bool.and_eq_true] at hc ⊢
        refine ⟨⟨hc.1.1, ?_⟩, hc.2⟩
        have h1 := hc.1.2
        cases a2 with
        | none => rfl
        | some l =>
          cases l with
          | nil => simp [DataType.compatArgs, DataType.compatList] at h1
          | cons x xs =>
            simp only [DataType.compatArgs, DataType.compatList, Bool.and_eq_true] at h1 ⊢
            exact ⟨h.compat h1.1, h1.2⟩
      | _ => simp_all [DataType.compat]

theorem Vaguer.compat_right {k : Nat} {a b c : DataType} (h : Vaguer k a b) (hc : DataType.compat c b = true) :
    DataType.compat c a = true := by
  rw [compat_comm] at hc ⊢
  exact h.compat hc

theorem Vaguer.of_undefined {k : Nat} {a : DataType} (h : Vaguer k a .undefined) : a = .undefined := by
  cases k <;> simp [Vaguer] at h <;> exact h

/-- a type that is no collection or function is known or not -/
theorem Vaguer.scalar {k : Nat} {a b : DataType} (h : Vaguer k a b) (hb : b.isScalar = true)
    (hf : ∀ n r as m, b ≠ .function n r as m) : a = .undefined ∨ a = b := by
  cases k with
  | zero => exact h
  | succ k =>
    rcases h with h | h | ⟨u, v, n, rfl, rfl, h⟩ | ⟨u, v, n, rfl, rfl, h⟩ | ⟨u, v, u', v', n, rfl, rfl, h, h'⟩ |
      ⟨u, v, nm, r, m, rfl, rfl, h⟩
    · exact .inl h
    · exact .inr h
    · cases hb
    · cases hb
    · cases hb
    · exact (hf _ _ _ _ rfl).elim

/-- the members' types, each known or not: so is their common type -/
theorem vaguer_members {as bs : List DataType} (h : List.Forall₂ (Vaguer 0) as bs) :
    Vaguer 0 (memberType as) (memberType bs) := by
  by_cases hu : .undefined ∈ as
  · left
    unfold memberType
    have hm : DataType.undefined ∈ as.filter (fun t => !DataType.eq t .null) := by
      rw [List.mem_filter]
      exact ⟨hu, rfl⟩
    generalize as.filter (fun t => !DataType.eq t .null) = l at hm
    cases l with
    | nil => simp at hm
    | cons t rest =>
      simp only
      split
      · rename_i hall
        rw [List.all_eq_true] at hall
        rcases List.mem_cons.1 hm with h1 | h1
        · exact h1.symm
        · have := hall _ h1
          cases t <;> simp_all [DataType.eq]
      · rfl
  · right
    have : as = bs := by
      induction h with
      | nil => rfl
      | cons h hs ih =>
        simp only [List.mem_cons, not_or] at hu
        rcases h with rfl | rfl
        · exact (hu.1 rfl).elim
        · rw [ih hu.2]
    rw [this]

theorem Vaguer.accepts {k : Nat} {a b : DataType} (h : Vaguer k a b) {op : BinOp} (hb : op.accepts b = true) :
    op.accepts a = true := by
  unfold BinOp.accepts at hb ⊢
  rw [Bool.or_eq_true] at hb ⊢
  rcases hb with hb | hb
  · rw [eq_undefined] at hb
    subst hb
    exact .inl (by rw [h.of_undefined]; rfl)
  · right
    rw [List.any_eq_true] at hb ⊢
    obtain ⟨x, hx, hc⟩ := hb
    exact ⟨x, hx, h.compat_right hc⟩


/-! ### Relations of evaluations without `catch` -/

/-- Relations between computations that are respected by the combinators of evaluation other than calls. -/
structure RelCore (R : {α : Type} → M α → M α → Prop) : Prop where
  lift : ∀ {α : Type} (x : Except Err α), R (M.lift x) (M.lift x)
  bind : ∀ {α β : Type} {m m' : M α} {f f' : α → M β},
    R m m' → (∀ a, R (f a) (f' a)) → R (m >>= f) (m' >>= f')
  setGroups : ∀ g : Value, GroupsValue g → R (recordMatch g) (recordMatch g)
  withScope : ∀ {α : Type} (a : Assignment) {m m' : M α}, R m m' → R (M.withScope a m) (M.withScope a m')

section
variable {R : {α : Type} → M α → M α → Prop} (hR : RelCore R)
include hR

theorem RelCore.pure {α : Type} (a : α) : R (Pure.pure a : M α) (Pure.pure a) := hR.lift (.ok a)

theorem RelCore.throw {α : Type} (e : Err) : R (M.throw e : M α) (M.throw e) := hR.lift (.error e)

theorem RelCore.ite {α : Type} {p : Prop} [Decidable p] {m m' n n' : M α}
    (h : p → R m m') (h' : ¬p → R n n') : R (if p then m else n) (if p then m' else n') := by
  split
  · exact h ‹_›
  · exact h' ‹_›

theorem opFuzzy_core (env : Env) (r t d) (s n : Bool) (a b : Value) :
    R (opFuzzy env s n a b) (opFuzzy (env.alt r t d) s n a b) := by
  show R (opFuzzy env s n a b) (opFuzzy env s n a b)
  unfold opFuzzy
  cases b <;> try exact hR.throw _
  · cases a <;> exact hR.pure _
  · refine hR.ite (fun _ => ?_) (fun _ => hR.throw _)
    cases a <;> try exact hR.pure _
    simp only
    split
    · exact hR.bind (hR.setGroups _ (groupsValue_mk _)) (fun _ => hR.pure _)
    · exact hR.pure _

theorem evalBin_core (env : Env) (r t d) (dc : DecCtx) (op : BinOp) {m m' n n' : M Value}
    (hm : R m m') (hn : R n n') : R (evalBin env dc op m n) (evalBin (env.alt r t d) dc op m' n') := by
  cases op with
  | add => exact hR.bind hm fun a => hR.bind hn fun b => hR.lift _
  | sub => exact hR.bind hm fun a => hR.bind hn fun b => hR.lift _
  | arith op =>
    exact hR.bind hm fun a => hR.bind (hR.lift _) fun _ => hR.bind hn fun b =>
      hR.bind (hR.lift _) fun _ => hR.lift _
  | bit op =>
    refine hR.bind hm fun a => hR.bind (hR.lift _) fun ty => ?_
    refine hR.ite (fun _ => ?_) (fun _ => ?_)
    · exact hR.bind (hR.lift _) fun _ => hR.bind hn fun b => hR.lift _
    · cases a <;> first | exact hR.throw _ | exact hR.bind hn fun b => hR.lift _
  | shift op =>
    refine hR.bind hm fun a => hR.bind (hR.lift _) fun ty => ?_
    refine hR.ite (fun _ => ?_) (fun _ => ?_)
    · exact hR.bind (hR.lift _) fun _ => hR.bind hn fun b => hR.lift _
    · cases a <;> first | exact hR.throw _ | exact hR.bind hn fun b => hR.lift _
  | and => exact hR.bind hm fun a => hR.ite (fun _ => hR.bind hn fun b => hR.pure _) (fun _ => hR.pure _)
  | or => exact hR.bind hm fun a => hR.ite (fun _ => hR.pure _) (fun _ => hR.bind hn fun b => hR.pure _)
  | eq => exact hR.bind hm fun a => hR.bind hn fun b => hR.pure _
  | ne => exact hR.bind hm fun a => hR.bind hn fun b => hR.pure _
  | cmp op => exact hR.bind hm fun a => hR.bind hn fun b => hR.bind (hR.lift _) fun _ => hR.pure _
  | fuzzy s ng =>
    refine hR.bind hm fun a => ?_
    cases a <;> first
      | exact hR.throw _
      | exact hR.bind hn fun b => opFuzzy_core hR env r t d s ng _ b

theorem seqM_core {ms ms' : List (M Value)} (h : List.Forall₂ (fun m m' => R m m') ms ms') :
    R (seqM ms) (seqM ms') := by
  induction h with
  | nil => exact hR.pure _
  | cons h _ ih => exact hR.bind h fun v => hR.bind ih fun vs => hR.pure _

theorem setM_core (off : TzDb) {ms ms' : List (M Value)}
    (h : List.Forall₂ (fun m m' => R m m') ms ms') (acc : List Value) :
    R (setM off acc ms) (setM off acc ms') := by
  induction h generalizing acc with
  | nil => exact hR.pure _
  | cons h _ ih => exact hR.bind h fun v => hR.ite (fun _ => ih _) (fun _ => hR.throw _)

theorem mapValsM_core {ps ps' : List (Value × M Value)} (h : RelVals R ps ps') :
    R (mapValsM ps) (mapValsM ps') := by
  induction h with
  | nil => exact hR.pure _
  | @cons p p' ps ps' hp h ih =>
    obtain ⟨k1, v1⟩ := p
    obtain ⟨k2, v2⟩ := p'
    obtain ⟨he, hv2⟩ := hp
    simp only at he hv2
    subst he
    exact hR.bind hv2 fun v => hR.bind ih fun vs => hR.pure _

theorem mapM_core (off : TzDb) {ps ps' : List (M Value × M Value)} (h : RelPairs R ps ps')
    {acc acc' : List (Value × M Value)} (ha : RelVals R acc acc') :
    R (mapKeysM off acc ps >>= mapValsM) (mapKeysM off acc' ps' >>= mapValsM) := by
  induction h generalizing acc acc' with
  | nil =>
    have e : ∀ a : List (Value × M Value), (mapKeysM off a [] >>= mapValsM) = mapValsM a := by
      intro a; simp only [mapKeysM, pure_bind]
    rw [e, e]
    exact mapValsM_core hR ha
  | @cons p p' ps ps' hp h ih =>
    obtain ⟨k, v⟩ := p
    obtain ⟨k', v'⟩ := p'
    obtain ⟨hk, hv⟩ := hp
    simp only at hk hv
    simp only [mapKeysM, bind_assoc]
    refine hR.bind hk fun key => hR.bind (hR.lift _) fun kt => ?_
    by_cases h1 : (kt.isCompound && !kt.isArray) = true
    · simp only [h1, if_true]
      have e : ∀ {α β : Type} (e : Err) (f : α → M β), (M.throw e >>= f) = M.throw e := by intros; rfl
      rw [e]
      exact hR.throw _
    · simp only [h1]
      by_cases h2 : key.hashable = true
      · simp only [h2, if_true]
        exact ih (mapInsert_rel off ha key hv)
      · simp only [h2]
        have e : ∀ {α β : Type} (e : Err) (f : α → M β), (M.throw e >>= f) = M.throw e := by intros; rfl
        simp only [Bool.false_eq_true, if_false]
        rw [e]
        exact hR.throw _

theorem evalSlice_core (env : Env) (r t d) (c : Value) {a a' b b' : M Value} (ha : R a a') (hb : R b b') :
    R (evalSlice env c a b) (evalSlice (env.alt r t d) c a' b') :=
  hR.bind ha fun _ => hR.bind (hR.lift _) fun _ => hR.bind hb fun _ => hR.bind (hR.lift _) fun _ =>
    hR.bind (hR.lift _) fun _ => hR.pure _

theorem compM_core (var : String) {c c' r r' : M Value} (hc : R c c') (hr : R r r') (xs : List Value) :
    R (compM var c r xs) (compM var c' r' xs) := by
  induction xs with
  | nil => exact hR.pure _
  | cons x xs ih =>
    refine hR.bind (hR.withScope _ ?_) fun o => hR.bind ih fun vs => hR.pure _
    exact hR.bind hc fun a => hR.ite (fun _ => hR.bind hr fun v => hR.pure _) (fun _ => hR.pure _)

end

/-! ### Expressions with fewer types -/

mutual
/-- The second expression is the first with vaguer types of its names (and so of the functions it calls). -/
def Expr.Vague : Expr → Expr → Prop
  | .lit v t, e' => e' = .lit v t
  | .array xs, e' => ∃ ys, Expr.VagueList xs ys ∧ e' = .array ys
  | .set xs, e' => ∃ ys, Expr.VagueList xs ys ∧ e' = .set ys
  | .mapping kvs, e' => ∃ ys, Expr.VaguePairs kvs ys ∧ e' = .mapping ys
  | .bin op l r, e' => ∃ l' r', l.Vague l' ∧ r.Vague r' ∧ e' = .bin op l' r'
  | .comp r var it c, e' => ∃ r' it' c', r.Vague r' ∧ it.Vague it' ∧ c.Vague c' ∧ e' = .comp r' var it' c'
  | .contains c m, e' => ∃ c' m', c.Vague c' ∧ m.Vague m' ∧ e' = .contains c' m'
  | .getAttr o n safe, e' => ∃ o', o.Vague o' ∧ e' = .getAttr o' n safe
  | .getItem c i safe, e' => ∃ c' i', c.Vague c' ∧ i.Vague i' ∧ e' = .getItem c' i' safe
  | .getSlice c a b safe, e' => ∃ c' a' b', c.Vague c' ∧ a.Vague a' ∧ b.Vague b' ∧ e' = .getSlice c' a' b' safe
  | .sym n t b, e' => ∃ t', Vaguer 1 t' t ∧ e' = .sym n t' b
  | .call f as, e' => (f.rt = .undefined ∨ f.rt.isFunction = true) ∧
      ∃ f' as' k, f.Vague f' ∧ Vaguer k f'.rt f.rt ∧ Expr.VagueList as as' ∧ e' = .call f' as'
  | .tern c t f, e' => ∃ c' t' f', c.Vague c' ∧ t.Vague t' ∧ f.Vague f' ∧ e' = .tern c' t' f'
  | .not e, e' => ∃ x, e.Vague x ∧ e' = .not x
  | .neg e, e' => ∃ x, e.Vague x ∧ e' = .neg x
/-- members -/
def Expr.VagueList : List Expr → List Expr → Prop
  | [], ys => ys = []
  | x :: xs, ys => ∃ y ys', x.Vague y ∧ Expr.VagueList xs ys' ∧ ys = y :: ys'
/-- items -/
def Expr.VaguePairs : List (Expr × Expr) → List (Expr × Expr) → Prop
  | [], ys => ys = []
  | (k, v) :: xs, ys => ∃ k' v' ys', k.Vague k' ∧ v.Vague v' ∧ Expr.VaguePairs xs ys' ∧ ys = (k', v') :: ys'
end

mutual
theorem vague_reduced : ∀ e e' : Expr, e.Vague e' → e'.reduced = e.reduced ∧ (e.reduced = true → e' = e)
  | .lit _ _, e', h => by simp only [Expr.Vague] at h; subst h; simp
  | .array xs, e', h | .set xs, e', h => by
    simp only [Expr.Vague] at h
    obtain ⟨ys, h, rfl⟩ := h
    obtain ⟨h1, h2⟩ := vague_reducedList xs ys h
    exact ⟨h1, fun hr => by rw [h2 hr]⟩
  | .mapping kvs, e', h => by
    simp only [Expr.Vague] at h
    obtain ⟨ys, h, rfl⟩ := h
    obtain ⟨h1, h2⟩ := vague_reducedPairs kvs ys h
    exact ⟨h1, fun hr => by rw [h2 hr]⟩
  | .bin .., e', h => by
    simp only [Expr.Vague] at h
    obtain ⟨l', r', -, -, rfl⟩ := h
    exact ⟨rfl, fun hr => by cases hr⟩
  | .comp .., e', h => by
    simp only [Expr.Vague] at h
    obtain ⟨_, _, _, -, -, -, rfl⟩ := h
    exact ⟨rfl, fun hr => by cases hr⟩
  | .contains .., e', h => by
    simp only [Expr.Vague] at h
    obtain ⟨_, _, -, -, rfl⟩ := h
    exact ⟨rfl, fun hr => by cases hr⟩
  | .getAttr .., e', h => by
    simp only [Expr.Vague] at h
    obtain ⟨_, -, rfl⟩ := h
    exact ⟨rfl, fun hr => by cases hr⟩
  | .getItem .., e', h => by
    simp only [Expr.Vague] at h
    obtain ⟨_, _, -, -, rfl⟩ := h
    exact ⟨rfl, fun hr => by cases hr⟩
  | .getSlice .., e', h => by
    simp only [Expr.Vague] at h
    obtain ⟨_, _, _, -, -, -, rfl⟩ := h
    exact ⟨rfl, fun hr => by cases hr⟩
  | .sym .., e', h => by
    simp only [Expr.Vague] at h
    obtain ⟨_, -, rfl⟩ := h
    exact ⟨rfl, fun hr => by cases hr⟩
  | .call .., e', h => by
    simp only [Expr.Vague] at h
    obtain ⟨-, _, _, _, -, -, -, rfl⟩ := h
    exact ⟨rfl, fun hr => by cases hr⟩
  | .tern .., e', h => by
    simp only [Expr.Vague] at h
    obtain ⟨_, _, _, -, -, -, rfl⟩ := h
    exact ⟨rfl, fun hr => by cases hr⟩
  | .not _, e', h | .neg _, e', h => by
    simp only [Expr.Vague] at h
    obtain ⟨_, -, rfl⟩ := h
    exact ⟨rfl, fun hr => by cases hr⟩
theorem vague_reducedList : ∀ xs ys : List Expr, Expr.VagueList xs ys →
    Expr.reducedList ys = Expr.reducedList xs ∧ (Expr.reducedList xs = true → ys = xs)
  | [], ys, h => by simp only [Expr.VagueList] at h; subst h; simp
  | x :: xs, ys, h => by
    simp only [Expr.VagueList] at h
    obtain ⟨y, ys', h1, h2, rfl⟩ := h
    obtain ⟨a1, a2⟩ := vague_reduced x y h1
    obtain ⟨b1, b2⟩ := vague_reducedList xs ys' h2
    refine ⟨by simp only [Expr.reducedList, a1, b1], fun hr => ?_⟩
    simp only [Expr.reducedList, Bool.and_eq_true] at hr
    rw [a2 hr.1, b2 hr.2]
theorem vague_reducedPairs : ∀ xs ys : List (Expr × Expr), Expr.VaguePairs xs ys →
    Expr.reducedPairs ys = Expr.reducedPairs xs ∧ (Expr.reducedPairs xs = true → ys = xs)
  | [], ys, h => by simp only [Expr.VaguePairs] at h; subst h; simp
  | (k, v) :: xs, ys, h => by
    simp only [Expr.VaguePairs] at h
    obtain ⟨k', v', ys', h0, h1, h2, rfl⟩ := h
    obtain ⟨c1, c2⟩ := vague_reduced k k' h0
    obtain ⟨a1, a2⟩ := vague_reduced v v' h1
    obtain ⟨b1, b2⟩ := vague_reducedPairs xs ys' h2
    refine ⟨by simp only [Expr.reducedPairs, a1, b1, c1], fun hr => ?_⟩
    simp only [Expr.reducedPairs, Bool.and_eq_true] at hr
    rw [a2 hr.1.2, b2 hr.2, c2 hr.1.1]
end

/-! ### Evaluation with fewer types -/

/-- **Specification.** The exceptions that the declared types add: SymbolTypeError, FunctionCallError, and the
exception of `from_value` for a value that has no type. -/
def Err.ofTypes (e : Err) : Prop :=
  (∃ n, e = .eng (.symbolType n)) ∨ e = .eng .functionCall ∨ ∃ v, fromValue v = .error e

/-- the first does what the second does, or raises an exception of the types -/
structure Checked {α : Type} (m m' : M α) : Prop where
  run : ∀ s, m s = m' s ∨ ∃ e, (m s).1 = .error e ∧ e.ofTypes

theorem Checked.same {α : Type} (m : M α) : Checked m m := ⟨fun _ => .inl rfl⟩

theorem checked_core : RelCore @Checked where
  lift x := .same _
  bind := by
    intro α β m m' f f' hm hf
    refine ⟨fun s => ?_⟩
    rcases hm.run s with h | ⟨e, h, he⟩
    · simp only [M.bind_apply, h]
      rcases m' s with ⟨_ | a, s'⟩
      · exact .inl rfl
      · exact (hf a).run s'
    · right
      refine ⟨e, ?_, he⟩
      simp only [M.bind_apply]
      rcases hms : m s with ⟨e' | a, s'⟩
      · rw [hms] at h; cases h; rfl
      · rw [hms] at h; cases h
  setGroups g _ := .same _
  withScope := by
    intro α a m m' h
    refine ⟨fun s => ?_⟩
    rcases h.run { s with scopes := s.scopes ++ [a] } with h | ⟨e, h, he⟩
    · left; simp only [M.withScope, h]
    · exact .inr ⟨e, h, he⟩

theorem checkSymbol_vaguer {t t' : DataType} (h : Vaguer 1 t' t) (n : String) (v : Value) :
    checkSymbol n t v = checkSymbol n t' v ∨ ∃ e, checkSymbol n t v = .error e ∧ e.ofTypes := by
  cases hc : checkSymbol n t v with
  | error e =>
    right
    refine ⟨e, rfl, ?_⟩
    unfold checkSymbol at hc
    split at hc
    · cases hc
    · cases hf : fromValue v with
      | error e' =>
        rw [hf] at hc
        cases hc
        exact .inr (.inr ⟨v, hf⟩)
      | ok vt =>
        rw [hf] at hc
        simp only [except_ok_bind] at hc
        left
        refine ⟨n, ?_⟩
        split_ifs at hc <;> (cases hc; rfl)
  | ok w =>
    left
    have key : ∀ u, u = t ∨ (w = v ∧ (DataType.eq t .undefined = true ∨ ∃ vt, fromValue v = .ok vt ∧
        (DataType.compat vt t = true ∨ DataType.eq vt .null = true))) := by
      intro _
      right
      unfold checkSymbol at hc
      split at hc
      · rename_i hu
        cases hc
        exact ⟨rfl, .inl hu⟩
      · cases hf : fromValue v with
        | error e' => rw [hf] at hc; cases hc
        | ok vt =>
          rw [hf] at hc
          simp only [except_ok_bind] at hc
          by_cases h1 : DataType.compat vt t = true
          · rw [if_pos h1] at hc
            refine ⟨?_, .inr ⟨vt, rfl, .inl h1⟩⟩
            split_ifs at hc <;> (cases hc; rfl)
          · rw [if_neg h1] at hc
            by_cases h2 : DataType.eq vt .null = true
            · rw [if_pos h2] at hc
              cases hc
              exact ⟨rfl, .inr ⟨vt, rfl, .inr h2⟩⟩
            · rw [if_neg h2] at hc; cases hc
    by_cases hu : t' = .undefined
    · subst hu
      rcases key .undefined with rfl | ⟨rfl, -⟩
      · exact hc.symm
      · rfl
    by_cases he : t' = t
    · rw [he, hc]
    have hcv := fun vt => h.compat_right (c := vt)
    rcases h with rfl | rfl | ⟨u, x, k, rfl, rfl, h⟩ | ⟨u, x, k, rfl, rfl, h⟩ | ⟨u, x, u', x', k, rfl, rfl, h, h'⟩ |
      ⟨u, x, nm, r, m, rfl, rfl, h⟩
    · exact (hu rfl).elim
    · exact (he rfl).elim
    · rcases key (.array u k) with h1 | ⟨rfl, h1 | ⟨vt, hf, h2⟩⟩
      · exact (he h1).elim
      · simp [DataType.eq] at h1
      · rcases h with rfl | rfl
        · unfold checkSymbol
          rw [hf]
          simp only [except_ok_bind]
          rcases h2 with h2 | h2
          · rw [if_pos (hcv vt h2)]
            simp [DataType.eq, DataType.isScalar, DataType.valueType]
          · cases vt <;> simp [DataType.eq] at h2
            simp [DataType.eq, DataType.compat]
        · exact (he rfl).elim
    · rcases key (.set u k) with h1 | ⟨rfl, h1 | ⟨vt, hf, h2⟩⟩
      · exact (he h1).elim
      · simp [DataType.eq] at h1
      · rcases h with rfl | rfl
        · unfold checkSymbol
          rw [hf]
          simp only [except_ok_bind]
          rcases h2 with h2 | h2
          · rw [if_pos (hcv vt h2)]
            simp [DataType.eq, DataType.isScalar, DataType.valueType]
          · cases vt <;> simp [DataType.eq] at h2
            simp [DataType.eq, DataType.compat]
        · exact (he rfl).elim
    · rcases key (.mapping u u' k) with h1 | ⟨rfl, h1 | ⟨vt, hf, h2⟩⟩
      · exact (he h1).elim
      · simp [DataType.eq] at h1
      · rcases h2 with h2 | h2
        · rcases h' with rfl | rfl
          · unfold checkSymbol
            rw [hf]
            simp only [except_ok_bind]
            rw [if_pos (hcv vt h2)]
            simp [DataType.eq, DataType.isScalar, DataType.valueType]
          · rw [← hc]
            unfold checkSymbol
            rw [hf]
            simp only [except_ok_bind]
            rw [if_pos (hcv vt h2), if_pos h2]
            rfl
        · unfold checkSymbol
          rw [hf]
          simp only [except_ok_bind]
          cases vt <;> simp [DataType.eq] at h2
          simp [DataType.eq, DataType.compat]
    · rcases key (.function nm r (some [u]) m) with h1 | ⟨rfl, h1 | ⟨vt, hf, h2⟩⟩
      · exact (he h1).elim
      · simp [DataType.eq] at h1
      · unfold checkSymbol
        rw [hf]
        simp only [except_ok_bind]
        rcases h2 with h2 | h2
        · rw [if_pos (hcv vt h2)]
          simp [DataType.eq, DataType.isScalar]
        · cases vt <;> simp [DataType.eq] at h2
          simp [DataType.eq, DataType.compat]

theorem checked_lift {α : Type} {x y : Except Err α} (h : x = y ∨ ∃ e, x = .error e ∧ e.ofTypes) :
    Checked (M.lift x) (M.lift y) := by
  refine ⟨fun s => ?_⟩
  rcases h with rfl | ⟨e, rfl, he⟩
  · exact .inl rfl
  · exact .inr ⟨e, rfl, he⟩

theorem evalSymbol_checked (env : Env) (t' : String → Except Err DataType) (thing : Value) (n : String) (b : Bool)
    {t u : DataType} (h : Vaguer 1 u t) :
    Checked (evalSymbol env thing n t b) (evalSymbol (env.alt env.resolver t' env.defaultValue) thing n u b) :=
  checked_core.bind (.same _) fun _ => checked_lift (checkSymbol_vaguer h n _)

theorem validateArgs_vaguer {k : Nat} {u v : DataType} (h : Vaguer k u v) (args : List Value) :
    validateArgs args [v] = validateArgs args [u] ∨ ∃ e, validateArgs args [v] = .error e ∧ e.ofTypes := by
  cases args with
  | nil => exact .inl rfl
  | cons x xs =>
    simp only [validateArgs]
    cases hf : fromValue x with
    | error e => exact .inr ⟨e, rfl, .inr (.inr ⟨x, hf⟩)⟩
    | ok vt =>
      simp only [except_ok_bind]
      by_cases hc : DataType.compat vt v = true
      · rw [if_pos hc, if_pos (h.compat_right hc)]
        exact .inl rfl
      · rw [if_neg hc]
        exact .inr ⟨_, rfl, .inr (.inl rfl)⟩

theorem validateArgs_ofTypes : ∀ (args : List Value) (ts : List DataType),
    validateArgs args ts = .ok () ∨ ∃ e, validateArgs args ts = .error e ∧ e.ofTypes
  | [], _ => .inl (by unfold validateArgs; rfl)
  | x :: xs, [] => .inl (by unfold validateArgs; rfl)
  | x :: xs, t :: ts => by
    simp only [validateArgs]
    cases hf : fromValue x with
    | error e => exact .inr ⟨e, rfl, .inr (.inr ⟨x, hf⟩)⟩
    | ok vt =>
      simp only [except_ok_bind]
      split
      · exact validateArgs_ofTypes xs ts
      · exact .inr ⟨_, rfl, .inr (.inl rfl)⟩

theorem validateCallValues_min (m : Option Nat) (args : List Value) :
    (∀ n r as, validateCallValues (.function n r as m) args = badArg) ∨
    (∀ n r as, validateCallValues (.function n r as m) args =
      match as with
      | none => .ok ()
      | some ts => if args.length > ts.length then badArg else validateArgs args ts) := by
  cases m with
  | none => exact .inr fun n r as => rfl
  | some m =>
    by_cases h : args.length < m
    · left
      intro n r as
      simp [validateCallValues, h]
    · right
      intro n r as
      simp only [validateCallValues, h, decide_false, Bool.false_eq_true, if_false]
      rfl

theorem validateCallValues_ofTypes {ft : DataType} (hf : ft.isFunction = true) (args : List Value) :
    validateCallValues ft args = .ok () ∨ ∃ e, validateCallValues ft args = .error e ∧ e.ofTypes := by
  cases ft with
  | function n r as m =>
    rcases validateCallValues_min m args with h | h
    · rw [h]
      exact .inr ⟨_, rfl, .inr (.inl rfl)⟩
    · rw [h]
      cases as with
      | none => exact .inl rfl
      | some ts =>
        simp only
        by_cases hl : args.length > ts.length
        · rw [if_pos hl]
          exact .inr ⟨_, rfl, .inr (.inl rfl)⟩
        · rw [if_neg hl]
          exact validateArgs_ofTypes args ts
  | _ => cases hf

theorem validateCallValues_vaguer {k : Nat} {f f' : DataType} (h : Vaguer k f' f) (hf : f.isFunction = true)
    (args : List Value) : f' = .undefined ∨
    (f'.isFunction = true ∧ (validateCallValues f args = validateCallValues f' args ∨
      ∃ e, validateCallValues f args = .error e ∧ e.ofTypes)) := by
  cases k with
  | zero =>
    rcases h with rfl | rfl
    · exact .inl rfl
    · exact .inr ⟨hf, .inl rfl⟩
  | succ k =>
    rcases h with rfl | rfl | ⟨u, v, n, rfl, rfl, h⟩ | ⟨u, v, n, rfl, rfl, h⟩ | ⟨u, v, u', v', n, rfl, rfl, h, h'⟩ |
      ⟨u, v, nm, r, m, rfl, rfl, h⟩
    · exact .inl rfl
    · exact .inr ⟨hf, .inl rfl⟩
    · cases hf
    · cases hf
    · cases hf
    · refine .inr ⟨rfl, ?_⟩
      rcases validateCallValues_min m args with h' | h'
      · rw [h', h']
        exact .inl rfl
      · rw [h', h']
        simp only
        by_cases hl : args.length > 1 <;> simp only [List.length_cons, List.length_nil, Nat.zero_add]
        · rw [if_pos hl, if_pos hl]
          exact .inl rfl
        · rw [if_neg hl, if_neg hl]
          exact validateArgs_vaguer h args

theorem callNodeType_vaguer {k : Nat} {f f' : DataType} (h : Vaguer k f' f) :
    Vaguer 0 (callNodeType f') (callNodeType f) := by
  cases k with
  | zero =>
    rcases h with rfl | rfl
    · exact .inl rfl
    · exact .inr rfl
  | succ k =>
    rcases h with rfl | rfl | ⟨u, v, n, rfl, rfl, h⟩ | ⟨u, v, n, rfl, rfl, h⟩ | ⟨u, v, u', v', n, rfl, rfl, h, h'⟩ |
      ⟨u, v, nm, r, m, rfl, rfl, h⟩
    · exact .inl rfl
    all_goals exact .inr rfl

theorem finishCall_checked (env : Env) (t' : String → Except Err DataType) (dc : DecCtx) {k : Nat} {t u : DataType}
    (h : Vaguer k u t) (f : Value) (args : List Value) :
    Checked (finishCall env dc t f args) (finishCall (env.alt env.resolver t' env.defaultValue) dc u f args) := by
  unfold finishCall
  refine checked_core.bind ?_ fun r => checked_core.bind (.same _) fun r => checked_core.bind (.same _) fun vt => ?_
  · have : callFn (env.alt env.resolver t' env.defaultValue) dc f args = callFn env dc f args := by
      exact (callFn_rel eq_base env _ _ _ dc f args).symm
    rw [this]
    exact .same _
  · refine ⟨fun s => ?_⟩
    by_cases hc : DataType.compat vt t = true
    · rw [if_pos hc, if_pos (h.compat_right hc)]
      exact .inl rfl
    · rw [if_neg hc]
      exact .inr ⟨_, rfl, .inr (.inl rfl)⟩

theorem evalCall_checked (env : Env) (t' : String → Except Err DataType) (dc : DecCtx) {k : Nat} {t u : DataType}
    (h : Vaguer k u t) (hf : t = .undefined ∨ t.isFunction = true) (f : Value) (args : List Value) :
    Checked (evalCall env dc t (callNodeType t) f args)
      (evalCall (env.alt env.resolver t' env.defaultValue) dc u (callNodeType u) f args) := by
  have hc := finishCall_checked env t' dc (callNodeType_vaguer h) f args
  unfold evalCall
  rcases hf with rfl | hf
  · rw [h.of_undefined] at hc ⊢
    simp only [DataType.eq, if_true]
    exact hc
  · have h1 : DataType.eq t .undefined = false := by cases t <;> simp_all [DataType.isFunction, DataType.eq]
    rw [h1]
    simp only [Bool.false_eq_true, if_false]
    rcases validateCallValues_vaguer h hf args with rfl | ⟨h2, h3⟩
    · simp only [DataType.eq, if_true]
      rcases validateCallValues_ofTypes hf args with h4 | ⟨e, h4, he⟩
      · rw [h4]
        exact hc
      · rw [h4]
        exact ⟨fun s => .inr ⟨e, rfl, he⟩⟩
    · have h1 : DataType.eq u .undefined = false := by cases u <;> simp_all [DataType.isFunction, DataType.eq]
      rw [h1]
      simp only [Bool.false_eq_true, if_false]
      exact checked_core.bind (checked_lift h3) fun _ => hc

section
variable (env : Env) (t' : String → Except Err DataType) (dc : DecCtx) (thing : Value)

mutual
theorem eval_checked : ∀ e e' : Expr, e.Vague e' →
    Checked (eval env dc thing e) (eval (env.alt env.resolver t' env.defaultValue) dc thing e')
  | .lit v _, e', h => by
    simp only [Expr.Vague] at h
    subst h
    simp only [eval]
    exact .same _
  | .array xs, e', h => by
    simp only [Expr.Vague] at h
    obtain ⟨ys, h, rfl⟩ := h
    simp only [eval]
    exact checked_core.bind (seqM_core checked_core (evals_checked xs ys h)) fun _ => .same _
  | .set xs, e', h => by
    simp only [Expr.Vague] at h
    obtain ⟨ys, h, rfl⟩ := h
    simp only [eval]
    exact checked_core.bind (setM_core checked_core _ (evals_checked xs ys h) []) fun _ => .same _
  | .mapping kvs, e', h => by
    simp only [Expr.Vague] at h
    obtain ⟨ys, h, rfl⟩ := h
    simp only [eval]
    have := mapM_core checked_core env.utcoffset (evalPairs_checked kvs ys h) (acc := []) (acc' := []) .nil
    have h2 := checked_core.bind this fun items => Checked.same (pure (Value.map .ordered items) : M Value)
    simp only [bind_assoc] at h2
    exact h2
  | .bin op l r, e', h => by
    simp only [Expr.Vague] at h
    obtain ⟨l', r', h1, h2, rfl⟩ := h
    simp only [eval]
    exact evalBin_core checked_core env _ _ _ dc op (eval_checked l l' h1) (eval_checked r r' h2)
  | .comp r var it c, e', h => by
    simp only [Expr.Vague] at h
    obtain ⟨r', it', c', h1, h2, h3, rfl⟩ := h
    simp only [eval]
    exact checked_core.bind (eval_checked it it' h2) fun _ => checked_core.bind (.same _) fun _ =>
      checked_core.ite (fun _ => checked_core.bind (.same _) fun xs => checked_core.bind
        (compM_core checked_core var (eval_checked c c' h3) (eval_checked r r' h1) xs) fun _ => .same _)
        (fun _ => .same _)
  | .contains c m, e', h => by
    simp only [Expr.Vague] at h
    obtain ⟨c', m', h1, h2, rfl⟩ := h
    simp only [eval]
    exact checked_core.bind (eval_checked c c' h1) fun _ => checked_core.bind (.same _) fun _ =>
      checked_core.bind (eval_checked m m' h2) fun _ => .same _
  | .getAttr o n safe, e', h => by
    simp only [Expr.Vague] at h
    obtain ⟨o', h1, rfl⟩ := h
    simp only [eval]
    exact checked_core.bind (eval_checked o o' h1) fun _ => checked_core.ite (fun _ => .same _) (fun _ => .same _)
  | .getItem c i safe, e', h => by
    simp only [Expr.Vague] at h
    obtain ⟨c', i', h1, h2, rfl⟩ := h
    simp only [eval]
    exact checked_core.bind (eval_checked c c' h1) fun _ => checked_core.ite (fun _ => .same _)
      (fun _ => checked_core.bind (eval_checked i i' h2) fun _ => .same _)
  | .getSlice c a b safe, e', h => by
    simp only [Expr.Vague] at h
    obtain ⟨c', a', b', h1, h2, h3, rfl⟩ := h
    simp only [eval]
    exact checked_core.bind (eval_checked c c' h1) fun _ => checked_core.ite (fun _ => .same _)
      (fun _ => evalSlice_core checked_core env _ _ _ _ (eval_checked a a' h2) (eval_checked b b' h3))
  | .sym n t b, e', h => by
    simp only [Expr.Vague] at h
    obtain ⟨u, h, rfl⟩ := h
    simp only [eval]
    exact evalSymbol_checked env t' thing n b h
  | .call f as, e', h => by
    simp only [Expr.Vague] at h
    obtain ⟨hf, f', as', k, h1, h2, h3, rfl⟩ := h
    simp only [eval]
    exact checked_core.bind (eval_checked f f' h1) fun _ => checked_core.ite
      (fun _ => checked_core.bind (seqM_core checked_core (evals_checked as as' h3)) fun vs =>
        evalCall_checked env t' dc h2 hf _ vs) (fun _ => .same _)
  | .tern c t f, e', h => by
    simp only [Expr.Vague] at h
    obtain ⟨c', t1, f', h1, h2, h3, rfl⟩ := h
    simp only [eval]
    exact checked_core.bind (eval_checked c c' h1) fun _ => checked_core.ite (fun _ => eval_checked t t1 h2)
      (fun _ => eval_checked f f' h3)
  | .not e, e', h => by
    simp only [Expr.Vague] at h
    obtain ⟨x, h1, rfl⟩ := h
    simp only [eval]
    exact checked_core.bind (eval_checked e x h1) fun _ => .same _
  | .neg e, e', h => by
    simp only [Expr.Vague] at h
    obtain ⟨x, h1, rfl⟩ := h
    simp only [eval]
    exact checked_core.bind (eval_checked e x h1) fun _ => .same _
theorem evals_checked : ∀ xs ys : List Expr, Expr.VagueList xs ys →
    List.Forall₂ (fun m m' => Checked m m') (evals env dc thing xs)
      (evals (env.alt env.resolver t' env.defaultValue) dc thing ys)
  | [], ys, h => by
    simp only [Expr.VagueList] at h
    subst h
    simp only [evals]
    exact .nil
  | x :: xs, ys, h => by
    simp only [Expr.VagueList] at h
    obtain ⟨y, ys', h1, h2, rfl⟩ := h
    simp only [evals]
    exact .cons (eval_checked x y h1) (evals_checked xs ys' h2)
theorem evalPairs_checked : ∀ xs ys : List (Expr × Expr), Expr.VaguePairs xs ys →
    RelPairs @Checked (evalPairs env dc thing xs)
      (evalPairs (env.alt env.resolver t' env.defaultValue) dc thing ys)
  | [], ys, h => by
    simp only [Expr.VaguePairs] at h
    subst h
    simp only [evalPairs]
    exact .nil
  | (k, v) :: xs, ys, h => by
    simp only [Expr.VaguePairs] at h
    obtain ⟨k', v', ys', h0, h1, h2, rfl⟩ := h
    simp only [evalPairs]
    exact .cons ⟨eval_checked k k' h0, eval_checked v v' h1⟩ (evalPairs_checked xs ys' h2)
end
end

/-! ### Construction with fewer types -/

/-- if the first computation succeeds then so does the second, with related results; both leave the variables -/
structure Refines {α : Type} (P : α → α → Prop) (Γ Γ' : List Assignment) (m m' : M α) : Prop where
  run : ∀ s s' : St, s.scopes = Γ → s'.scopes = Γ' → ∀ a, (m s).1 = .ok a →
    ∃ a', (m' s').1 = .ok a' ∧ P a a' ∧ (m s).2.scopes = Γ ∧ (m' s').2.scopes = Γ'

theorem Refines.bind {α β : Type} {P : α → α → Prop} {Q : β → β → Prop} {Γ Γ' : List Assignment} {m m' : M α}
    {f f' : α → M β} (hm : Refines P Γ Γ' m m') (hf : ∀ a a', P a a' → Refines Q Γ Γ' (f a) (f' a')) :
    Refines Q Γ Γ' (m >>= f) (m' >>= f') := by
  refine ⟨fun s s' hs hs' b hb => ?_⟩
  simp only [M.bind_apply] at hb ⊢
  rcases hms : m s with ⟨e | a, s1⟩
  · rw [hms] at hb; cases hb
  · rw [hms] at hb
    obtain ⟨a', h1, hP, h2, h3⟩ := hm.run s s' hs hs' a (by rw [hms])
    rcases hms' : m' s' with ⟨e | a'', s2⟩
    · rw [hms'] at h1; cases h1
    · rw [hms'] at h1 h3
      rw [hms] at h2
      cases h1
      exact (hf a a' hP).run s1 s2 h2 h3 b hb

theorem Refines.lift {α : Type} {P : α → α → Prop} {Γ Γ' : List Assignment} {x x' : Except Err α}
    (h : ∀ a, x = .ok a → ∃ a', x' = .ok a' ∧ P a a') : Refines P Γ Γ' (M.lift x) (M.lift x') := by
  refine ⟨fun s s' hs hs' a ha => ?_⟩
  obtain ⟨a', h1, h2⟩ := h a ha
  exact ⟨a', h1, h2, hs, hs'⟩

theorem Refines.pure {α : Type} {P : α → α → Prop} {Γ Γ' : List Assignment} {a a' : α} (h : P a a') :
    Refines P Γ Γ' (Pure.pure a) (Pure.pure a') :=
  ⟨fun s s' hs hs' b hb => by cases hb; exact ⟨a', rfl, h, hs, hs'⟩⟩

theorem Refines.throw {α : Type} {P : α → α → Prop} {Γ Γ' : List Assignment} {e : Err} {m : M α} :
    Refines P Γ Γ' (M.throw e) m := ⟨fun s s' hs hs' b hb => by cases hb⟩

theorem Refines.withScope {α : Type} {P : α → α → Prop} {Γ Γ' : List Assignment} {a a' : Assignment} {m m' : M α}
    (h : Refines P (Γ ++ [a]) (Γ' ++ [a']) m m') : Refines P Γ Γ' (M.withScope a m) (M.withScope a' m') := by
  refine ⟨fun s s' hs hs' b hb => ?_⟩
  obtain ⟨b', h1, h2, h3, h4⟩ := h.run { s with scopes := s.scopes ++ [a] } { s' with scopes := s'.scopes ++ [a'] }
    (by rw [hs]) (by rw [hs']) b hb
  refine ⟨b', h1, h2, ?_, ?_⟩
  · show List.dropLast _ = _
    rw [h3, List.dropLast_concat]
  · show List.dropLast _ = _
    rw [h4, List.dropLast_concat]

theorem Refines.imp {α : Type} {P Q : α → α → Prop} {Γ Γ' : List Assignment} {m m' : M α}
    (h : Refines P Γ Γ' m m') (hPQ : ∀ a a', P a a' → Q a a') : Refines Q Γ Γ' m m' :=
  ⟨fun s s' hs hs' a ha => let ⟨a', h1, h2, h3⟩ := h.run s s' hs hs' a ha; ⟨a', h1, hPQ _ _ h2, h3⟩⟩

/-- the variables of two contexts that differ in the knowledge of types; `vars` are the depths of the variables -/
def Related (vars : List (String × Nat)) (Γ Γ' : List Assignment) : Prop :=
  List.Forall₂ (fun a a' => a.name = a'.name ∧ a.value = a'.value ∧
    Vaguer ((Raw.sym a.name false).depth vars) a'.type a.type) Γ Γ'

/-- same names and values -/
def SameVals (Γ Γ' : List Assignment) : Prop :=
  List.Forall₂ (fun a a' => a.name = a'.name ∧ a.value = a'.value) Γ Γ'

theorem Related.same {vars : List (String × Nat)} {Γ Γ' : List Assignment} (h : Related vars Γ Γ') :
    SameVals Γ Γ' := h.imp fun _ _ h => ⟨h.1, h.2.1⟩

theorem sameVals_lookup {Γ Γ' : List Assignment} (h : SameVals Γ Γ') (n : String) :
    (scopeLookup Γ n = none ∧ scopeLookup Γ' n = none) ∨
    ∃ a a', scopeLookup Γ n = some a ∧ scopeLookup Γ' n = some a' ∧ a.value = a'.value := by
  induction h with
  | nil => exact .inl ⟨rfl, rfl⟩
  | @cons a a' l l' h _ ih =>
    simp only [scopeLookup, List.find?_cons, ← h.1]
    cases a.name == n
    · exact ih
    · exact .inr ⟨a, a', rfl, rfl, h.2⟩

theorem related_lookup {vars : List (String × Nat)} {Γ Γ' : List Assignment} (h : Related vars Γ Γ') (n : String) :
    (scopeLookup Γ n = none ∧ scopeLookup Γ' n = none) ∨
    ∃ a a', scopeLookup Γ n = some a ∧ scopeLookup Γ' n = some a' ∧
      Vaguer ((Raw.sym n false).depth vars) a'.type a.type := by
  induction h with
  | nil => exact .inl ⟨rfl, rfl⟩
  | @cons a a' l l' h _ ih =>
    simp only [scopeLookup, List.find?_cons, ← h.1]
    cases hn : a.name == n
    · exact ih
    · rw [beq_iff_eq] at hn
      subst hn
      exact .inr ⟨a, a', rfl, rfl, h.2.2⟩

theorem depth_cons (vars : List (String × Nat)) (p : String × Nat) (n : String) :
    (Raw.sym n false).depth vars ≤ (Raw.sym n false).depth (p :: vars) ∧
    (p.1 = n → p.2 ≤ (Raw.sym n false).depth (p :: vars)) := by
  simp only [Raw.depth, List.filter_cons]
  cases h : p.1 == n
  · refine ⟨le_refl _, fun hn => ?_⟩
    rw [beq_eq_false_iff_ne] at h
    exact (h hn).elim
  · simp only [if_true, List.map_cons, List.foldr_cons]
    exact ⟨le_max_right _ _, fun _ => le_max_left _ _⟩

theorem Related.push {vars : List (String × Nat)} {Γ Γ' : List Assignment} (h : Related vars Γ Γ') (var : String)
    (v : Value) {k : Nat} {t t' : DataType} (ht : Vaguer k t' t) :
    Related ((var, k) :: vars) (Γ ++ [⟨var, v, t⟩]) (Γ' ++ [⟨var, v, t'⟩]) := by
  refine List.rel_append (h.imp fun a a' h => ⟨h.1, h.2.1, h.2.2.mono (depth_cons vars (var, k) a.name).1⟩) ?_
  exact .cons ⟨rfl, rfl, ht.mono ((depth_cons vars (var, k) var).2 rfl)⟩ .nil

/-- the computations do the same on states with the same variables -/
structure SameOutcome {α : Type} (m m' : M α) : Prop where
  run : ∀ s s' : St, SameVals s.scopes s'.scopes → (m s).1 = (m' s').1 ∧ SameVals (m s).2.scopes (m' s').2.scopes

theorem sameOutcome_closed : RelClosed @SameOutcome where
  lift _ := ⟨fun s s' h => ⟨rfl, h⟩⟩
  bind := by
    intro α β m m' f f' hm hf
    refine ⟨fun s s' h => ?_⟩
    obtain ⟨h1, h2⟩ := hm.run s s' h
    simp only [M.bind_apply]
    rcases hms : m s with ⟨x, s1⟩
    rcases hms' : m' s' with ⟨x', s2⟩
    rw [hms, hms'] at h1 h2
    cases h1
    cases x with
    | error e => exact ⟨rfl, h2⟩
    | ok a => exact (hf a).run s1 s2 h2
  setGroups _ _ := ⟨fun s s' h => ⟨rfl, h⟩⟩
  logCall _ _ _ _ := ⟨fun s s' h => ⟨rfl, h⟩⟩
  rethrow := by
    intro α e m m' hm
    refine ⟨fun s s' h => ?_⟩
    obtain ⟨h1, h2⟩ := hm.run s s' h
    simp only [M.catchErr]
    rcases hms : m s with ⟨x, s1⟩
    rcases hms' : m' s' with ⟨x', s2⟩
    rw [hms, hms'] at h1 h2
    cases h1
    cases x <;> exact ⟨rfl, h2⟩
  withScope := by
    intro α a m m' hm
    refine ⟨fun s s' h => ?_⟩
    obtain ⟨h1, h2⟩ := hm.run { s with scopes := s.scopes ++ [a] } { s' with scopes := s'.scopes ++ [a] }
      (List.rel_append h (.cons ⟨rfl, rfl⟩ .nil))
    refine ⟨h1, ?_⟩
    show SameVals (List.dropLast _) (List.dropLast _)
    rw [List.dropLast_eq_take, List.dropLast_eq_take, h2.length_eq]
    exact List.forall₂_take _ h2

theorem evalGetAttr_sameOutcome (env : Env) (t' : String → Except Err DataType) (o : Value) (n : String) :
    SameOutcome (evalGetAttr env o n) (evalGetAttr (env.alt env.resolver t' env.defaultValue) o n) := by
  refine ⟨fun s s' h => ?_⟩
  have hr : resolveAttr (env.alt env.resolver t' env.defaultValue) o n = resolveAttr env o n := rfl
  unfold evalGetAttr
  rw [hr]
  cases hx : resolveAttr env o n with
  | ok v => exact ⟨rfl, h⟩
  | error e =>
    simp only
    by_cases he : isAttrErr e = true
    · rw [if_pos he, if_pos he]
      unfold ctxResolve
      simp only [Bool.false_eq_true, if_false]
      rcases sameVals_lookup h n with ⟨h1, h2⟩ | ⟨a, a', h1, h2, h3⟩
      · rw [h1, h2]
        simp only [Env.alt]
        cases env.resolver o n with
        | ok v => exact ⟨rfl, h⟩
        | error e' =>
          simp only
          by_cases hs : isSymErr e' = true
          · rw [if_pos hs, if_pos hs]
            cases env.defaultValue <;> exact ⟨rfl, h⟩
          · rw [if_neg hs, if_neg hs]
            exact ⟨rfl, h⟩
      · rw [h1, h2]
        simp only [h3]
        exact ⟨rfl, h⟩
    · rw [if_neg he, if_neg he]
      exact ⟨rfl, h⟩

section
variable {env : Env} {t' : String → Except Err DataType} {dct : DecCtx} {vars : List (String × Nat)}
  {Γ Γ' : List Assignment}

theorem fold_refines (hΓ : SameVals Γ Γ') {node : Expr}
    (hn : node.allNames (fun _ _ _ => False) (fun _ => True)) :
    Refines Eq Γ Γ' (eval env dct .none node) (eval (env.alt env.resolver t' env.defaultValue) dct .none node) := by
  refine ⟨fun s s' hs hs' a ha => ?_⟩
  have := (eval_rel sameOutcome_closed (env := env) (r := env.resolver) (t := t') (d := env.defaultValue) dct
    (thing := .none) (thing' := .none) (fun _ _ _ h => h.elim) (fun o n _ => evalGetAttr_sameOutcome env t' o n) node hn).run
    s s' (by rw [hs, hs']; exact hΓ)
  refine ⟨a, this.1 ▸ ha, rfl, ?_, ?_⟩
  · rw [eval_restores_variables, hs]
  · rw [eval_restores_variables, hs']

theorem foldLit_refines (hΓ : SameVals Γ Γ') {node : Expr}
    (hn : node.allNames (fun _ _ _ => False) (fun _ => True)) :
    Refines Eq Γ Γ' (foldLit env dct node) (foldLit (env.alt env.resolver t' env.defaultValue) dct node) :=
  (fold_refines hΓ hn).bind fun a a' h => by
    subst h
    exact .lift fun e he => ⟨e, he, rfl⟩

end

/-! ### The checks of the constructors with fewer types -/

theorem accepts_scalar {op : BinOp} (hop : op = .add ∨ op = .sub) {t : DataType} (h : op.accepts t = true) :
    t.isScalar = true ∧ ∀ n r as m, t ≠ .function n r as m := by
  rcases hop with rfl | rfl <;> cases t <;>
    simp_all [BinOp.accepts, BinOp.compatibleTypes, DataType.eq, DataType.compat, DataType.isScalar]

theorem vague_natural {e e' : Expr} (h : e.Vague e') : checkNaturalLit e' = checkNaturalLit e := by
  cases e <;> simp only [Expr.Vague] at h
  case lit => rw [h]
  case sym => obtain ⟨_, -, rfl⟩ := h; rfl
  case call => obtain ⟨-, _, _, _, -, -, -, rfl⟩ := h; rfl
  case bin => obtain ⟨_, _, -, -, rfl⟩ := h; rfl
  case comp => obtain ⟨_, _, _, -, -, -, rfl⟩ := h; rfl
  case tern => obtain ⟨_, _, _, -, -, -, rfl⟩ := h; rfl
  case contains => obtain ⟨_, _, -, -, rfl⟩ := h; rfl
  case getItem => obtain ⟨_, _, -, -, rfl⟩ := h; rfl
  case getSlice => obtain ⟨_, _, _, -, -, -, rfl⟩ := h; rfl
  all_goals
    obtain ⟨_, -, rfl⟩ := h
    rfl

/-- the check of a pattern that is a string literal -/
def checkPattern (env : Env) (r : Expr) : Except Err Unit :=
  match r with
  | .lit (.str p) _ => if env.reValid p then .ok () else .error (env.reError p)
  | _ => .ok ()

theorem vague_pattern (env : Env) {e e' : Expr} (h : e.Vague e') : checkPattern env e' = checkPattern env e := by
  cases e <;> simp only [Expr.Vague] at h
  case lit => rw [h]
  case sym => obtain ⟨_, -, rfl⟩ := h; rfl
  case call => obtain ⟨-, _, _, _, -, -, -, rfl⟩ := h; rfl
  case bin => obtain ⟨_, _, -, -, rfl⟩ := h; rfl
  case comp => obtain ⟨_, _, _, -, -, -, rfl⟩ := h; rfl
  case tern => obtain ⟨_, _, _, -, -, -, rfl⟩ := h; rfl
  case contains => obtain ⟨_, _, -, -, rfl⟩ := h; rfl
  case getItem => obtain ⟨_, _, -, -, rfl⟩ := h; rfl
  case getSlice => obtain ⟨_, _, _, -, -, -, rfl⟩ := h; rfl
  all_goals
    obtain ⟨_, -, rfl⟩ := h
    rfl

theorem Vaguer.cases {k : Nat} {a b : DataType} (h : Vaguer k a b) : a = .undefined ∨ a = b ∨
    ∃ j, k = j + 1 ∧ ((∃ u v n, a = .array u n ∧ b = .array v n ∧ Vaguer j u v) ∨
      (∃ u v n, a = .set u n ∧ b = .set v n ∧ Vaguer j u v) ∨
      (∃ u v u' v' n, a = .mapping u u' n ∧ b = .mapping v v' n ∧ Vaguer j u v ∧ Vaguer j u' v') ∨
      (∃ u v name r m, a = .function name r (some [u]) m ∧ b = .function name r (some [v]) m ∧ Vaguer j u v)) := by
  cases k with
  | zero => exact h.imp id .inl
  | succ k => exact h.imp id (Or.imp id fun h => ⟨k, rfl, h⟩)

theorem bit_cases {op : BinOp} (hop : (∃ o, op = .bit o) ∨ ∃ o, op = .shift o) {k : Nat} {l l' : DataType}
    (h : op.accepts l = true) (v : Vaguer k l' l) : (l = .undefined ∧ l' = .undefined) ∨
      (l = .float ∧ (l' = .undefined ∨ l' = .float)) ∨
      ((∃ o, op = .bit o) ∧ ∃ t n, l = .set t n ∧ (l' = .undefined ∨ ∃ u, l' = .set u n)) := by
  have h1 : l = .undefined ∨ l = .float ∨ ((∃ o, op = .bit o) ∧ ∃ t n, l = .set t n) := by
    rcases hop with ⟨o, rfl⟩ | ⟨o, rfl⟩ <;> cases l <;>
      simp_all [BinOp.accepts, BinOp.compatibleTypes, DataType.eq, DataType.compat]
  rcases h1 with rfl | rfl | ⟨ho, t, n, rfl⟩
  · exact .inl ⟨rfl, v.of_undefined⟩
  · exact .inr (.inl ⟨rfl, v.scalar rfl (by simp)⟩)
  · refine .inr (.inr ⟨ho, t, n, rfl, ?_⟩)
    rcases v.cases with rfl | rfl | ⟨j, rfl, ⟨u, v, m, rfl, he, -⟩ | ⟨u, v, m, rfl, he, -⟩ | ⟨u, v, u', v', m, rfl, he, -⟩ |
      ⟨u, v, nm, r, m, rfl, he, -⟩⟩ <;> simp_all

theorem bit_vague {op : BinOp} (hop : (∃ o, op = .bit o) ∨ ∃ o, op = .shift o) {j k : Nat} {l l' r r' : DataType}
    (hl : op.accepts l = true) (hr : op.accepts r = true) (vl : Vaguer j l' l) (vr : Vaguer k r' r)
    (hk : (bothKnown l r && !DataType.sameClass l r) = false) :
    (bothKnown l' r' && !DataType.sameClass l' r') = false ∧
    Vaguer 0 (bitType .undefined l' r') (bitType .undefined l r) ∧
    ((∃ o, op = .shift o) → Vaguer 0 (bitType .float l' r') (bitType .float l r)) := by
  rcases bit_cases hop hl vl with ⟨rfl, rfl⟩ | ⟨rfl, rfl | rfl⟩ | ⟨⟨o, rfl⟩, t, n, rfl, rfl | ⟨u, rfl⟩⟩ <;>
    rcases bit_cases hop hr vr with ⟨rfl, rfl⟩ | ⟨rfl, rfl | rfl⟩ | ⟨ho, t, n, rfl, rfl | ⟨u, rfl⟩⟩ <;>
      simp_all [bothKnown, DataType.sameClass, DataType.eq, bitType, DataType.isSet, Vaguer]
  obtain ⟨o, rfl⟩ := ho
  simp

theorem check_vague {env : Env} {t' : String → Except Err DataType} {op : BinOp} {l l' r r' : Expr} {j k : Nat}
    (hl : l.Vague l') (hr : r.Vague r') (vl : Vaguer j l'.rt l.rt) (vr : Vaguer k r'.rt r.rt)
    (hc : ∀ o, op = .cmp o → j = 0 ∧ k = 0) (h : op.check env l r = .ok ()) :
    op.check (env.alt env.resolver t' env.defaultValue) l' r' = .ok () ∧
      Vaguer 0 (op.rt l'.rt r'.rt) (op.rt l.rt r.rt) := by
  unfold BinOp.check at h ⊢
  by_cases ha : (op.accepts l.rt && op.accepts r.rt) = true
  swap
  · rw [if_neg ha] at h; cases h
  rw [if_pos ha] at h
  rw [Bool.and_eq_true] at ha
  obtain ⟨ha1, ha2⟩ := ha
  rw [vl.accepts ha1, vr.accepts ha2]
  simp only [Bool.and_self, if_true, except_ok_bind] at h ⊢
  cases op with
  | add | sub =>
    obtain ⟨s1, f1⟩ := accepts_scalar (by simp) ha1
    obtain ⟨s2, f2⟩ := accepts_scalar (by simp) ha2
    rcases vl.scalar s1 f1 with e1 | e1 <;> rcases vr.scalar s2 f2 with e2 | e2 <;>
      simp only [e1, e2, bothKnown, BinOp.rt, addType, subType] at h ⊢
    · exact ⟨rfl, .inl rfl⟩
    · exact ⟨rfl, .inl rfl⟩
    · refine ⟨?_, .inl ?_⟩ <;> cases l.rt <;> rfl
    · exact ⟨h, .inr rfl⟩
  | arith o => exact ⟨rfl, .inr rfl⟩
  | bit o =>
    simp only at h ⊢
    rw [vague_natural hl, vague_natural hr]
    have hk : (bothKnown l.rt r.rt && !DataType.sameClass l.rt r.rt) = false := by
      by_contra hh
      rw [Bool.not_eq_false] at hh
      rw [if_pos hh] at h
      cases h
    rw [hk] at h
    obtain ⟨k1, k2⟩ := bit_vague (.inl ⟨o, rfl⟩) ha1 ha2 vl vr hk
    rw [k1]
    exact ⟨h, k2.1⟩
  | shift o =>
    simp only at h ⊢
    rw [vague_natural hl, vague_natural hr]
    have hk : (bothKnown l.rt r.rt && !DataType.sameClass l.rt r.rt) = false := by
      by_contra hh
      rw [Bool.not_eq_false] at hh
      rw [if_pos hh] at h
      cases h
    rw [hk] at h
    obtain ⟨k1, k2⟩ := bit_vague (.inr ⟨o, rfl⟩) ha1 ha2 vl vr hk
    rw [k1]
    exact ⟨h, k2.2 ⟨o, rfl⟩⟩
  | and | or | eq | ne => exact ⟨rfl, .inr rfl⟩
  | cmp o =>
    obtain ⟨rfl, rfl⟩ := hc o rfl
    refine ⟨?_, .inr rfl⟩
    rcases vl with e1 | e1 <;> rcases vr with e2 | e2 <;> simp only [e1, e2, bothKnown] at h ⊢
    · rfl
    · rfl
    · cases l.rt <;> rfl
    · exact h
  | fuzzy s n =>
    refine ⟨?_, .inr rfl⟩
    have := vague_pattern env hr
    exact (show checkPattern env r' = .ok () from this.trans h)

theorem checkContains_vague {j k : Nat} {c c' m m' : DataType} (vc : Vaguer j c' c) (vm : Vaguer k m' m)
    (h : checkContains c m = .ok ()) : checkContains c' m' = .ok () := by
  unfold checkContains at h ⊢
  rcases vc.cases with rfl | rfl | ⟨j, rfl, ⟨u, v, n, rfl, rfl, -⟩ | ⟨u, v, n, rfl, rfl, -⟩ | ⟨u, v, u', v', n, rfl, rfl, -⟩ |
    ⟨u, v, nm, r, m, rfl, rfl, -⟩⟩
  · rfl
  · split
    · rename_i hb
      rw [if_pos hb] at h
      rcases vm.cases with rfl | rfl | ⟨j, rfl, hh⟩
      · rfl
      · exact h
      · exfalso
        rcases hh with ⟨u, v, n, rfl, rfl, -⟩ | ⟨u, v, n, rfl, rfl, -⟩ | ⟨u, v, u', v', n, rfl, rfl, -⟩ |
          ⟨u, v, nm, r, m, rfl, rfl, -⟩ <;> cases c' <;> simp_all [DataType.eq]
    · rename_i hb
      rw [if_neg hb] at h
      exact h
  · rfl
  · rfl
  · rfl
  · simp [DataType.eq, DataType.isScalar] at h

theorem attrFn_vague {k : AttrKind} (hk : k = .array ∨ k = .set) {n : String} {f : DataType → DataType}
    (hf : attrTypeFn k n = some f) {j : Nat} {t u : DataType} (hv : Vaguer (j + 1) u t)
    (hc : (∃ a b m, Vaguer j a b ∧ u = .array a m ∧ t = .array b m) ∨
      ∃ a b m, Vaguer j a b ∧ u = .set a m ∧ t = .set b m) :
    Vaguer (attrDepth (j + 1) n) (f u) (f t) := by
  have ha : Vaguer (j + 1) (toAryType u) (toAryType t) ∧ Vaguer (j + 1) (toSetType u) (toSetType t) := by
    rcases hc with ⟨a, b, m, h, rfl, rfl⟩ | ⟨a, b, m, h, rfl, rfl⟩
    · exact ⟨.inr (.inr (.inl ⟨a, b, true, rfl, rfl, h⟩)), .inr (.inr (.inr (.inl ⟨a, b, true, rfl, rfl, h⟩)))⟩
    · exact ⟨.inr (.inr (.inl ⟨a, b, true, rfl, rfl, h⟩)), .inr (.inr (.inr (.inl ⟨a, b, true, rfl, rfl, h⟩)))⟩
  have hw : ∀ n, Vaguer (j + 2) (withType n u) (withType n t) := fun n =>
    .inr (.inr (.inr (.inr (.inr ⟨u, t, n, .boolean, some 1, rfl, rfl, hv⟩))))
  rcases hk with rfl | rfl <;> simp only [attrTypeFn] at hf <;> split at hf <;> cases hf <;>
    first | exact .refl _ _ | exact hw _ | exact ha.1 | exact ha.2

theorem checkAttr_vague {k : Nat} {t u : DataType} (hu : Vaguer k u t) (n : String) (safe : Bool)
    (h : checkAttr t n safe = .ok ()) : checkAttr u n safe = .ok () ∧
      Vaguer (attrDepth k n) (attrNodeType u n safe) (attrNodeType t n safe) := by
  rcases hu.cases with rfl | rfl | ⟨j, rfl, hh⟩
  · exact ⟨rfl, .unknown _ _⟩
  · exact ⟨h, .refl _ _⟩
  · rcases hh with ⟨u, v, m, rfl, rfl, hv⟩ | ⟨u, v, m, rfl, rfl, hv⟩ | ⟨u, v, u', v', m, rfl, rfl, hv, hv'⟩ |
      ⟨u, v, nm, r, m, rfl, rfl, hv⟩
    · have hv1 : Vaguer (j + 1) (.array u m) (.array v m) := .inr (.inr (.inl ⟨u, v, m, rfl, rfl, hv⟩))
      simp only [checkAttr, attrNodeType, DataType.eq, Bool.false_and, Bool.false_eq_true, if_false, resolveAttrType,
        attrKind] at h ⊢
      cases hf : attrTypeFn .array n with
      | none => rw [hf] at h; simp [DataType.isMapping] at h
      | some f => exact ⟨rfl, attrFn_vague (.inl rfl) hf hv1 (.inl ⟨u, v, m, hv, rfl, rfl⟩)⟩
    · have hv1 : Vaguer (j + 1) (.set u m) (.set v m) := .inr (.inr (.inr (.inl ⟨u, v, m, rfl, rfl, hv⟩)))
      simp only [checkAttr, attrNodeType, DataType.eq, Bool.false_and, Bool.false_eq_true, if_false, resolveAttrType,
        attrKind] at h ⊢
      cases hf : attrTypeFn .set n with
      | none => rw [hf] at h; simp [DataType.isMapping] at h
      | some f => exact ⟨rfl, attrFn_vague (.inr rfl) hf hv1 (.inr ⟨u, v, m, hv, rfl, rfl⟩)⟩
    · have hv1 : Vaguer (j + 1) (.mapping u u' m) (.mapping v v' m) :=
        .inr (.inr (.inr (.inr (.inl ⟨u, v, u', v', m, rfl, rfl, hv, hv'⟩))))
      simp only [checkAttr, attrNodeType, DataType.eq, Bool.false_and, Bool.false_eq_true, if_false, resolveAttrType,
        attrKind, DataType.isMapping] at h ⊢
      cases hf : attrTypeFn .mapping n with
      | none => exact ⟨rfl, .refl _ _⟩
      | some f =>
        refine ⟨rfl, ?_⟩
        have : f (.mapping u u' m) = f (.mapping v v' m) := by
          simp only [attrTypeFn] at hf
          split at hf <;> cases hf <;> rfl
        simp only [this]
        exact .refl _ _
    · simp [checkAttr, DataType.eq, resolveAttrType, attrKind, DataType.isMapping] at h

theorem checkItem_vague {j k : Nat} {c c' i i' : DataType} (vc : Vaguer j c' c) (vi : Vaguer k i' i)
    (h : checkItem c i false = .ok ()) : checkItem c' i' false = .ok () ∧
      Vaguer (j - 1) (itemNodeType c') (itemNodeType c) := by
  have hi := fun t => vi.compat (c := t)
  rcases vc.cases with rfl | rfl | ⟨j, rfl, hh⟩
  · exact ⟨rfl, .unknown _ _⟩
  · refine ⟨?_, .refl _ _⟩
    cases c' <;> simp_all [checkItem]
  · rcases hh with ⟨u, v, m, rfl, rfl, hv⟩ | ⟨u, v, m, rfl, rfl, hv⟩ | ⟨u, v, u', v', m, rfl, rfl, hv, hv'⟩ |
      ⟨u, v, nm, r, m, rfl, rfl, hv⟩
    · refine ⟨?_, hv⟩
      simp_all [checkItem]
    · simp [checkItem] at h
    · refine ⟨?_, hv'⟩
      simp only [checkItem, Bool.false_or] at h ⊢
      by_cases hc : DataType.compat i v = true
      · rw [if_pos (hv.compat_right (hi v hc))]
      · rw [if_neg hc] at h; cases h
    · simp [checkItem] at h

theorem checkSlice_vague {k : Nat} {c c' : DataType} (vc : Vaguer k c' c) (safe : Bool)
    (h : checkSlice c safe = .ok ()) : checkSlice c' safe = .ok () ∧
      Vaguer k (sliceNodeType c') (sliceNodeType c) := by
  rcases vc.cases with rfl | rfl | ⟨j, rfl, hh⟩
  · exact ⟨rfl, .unknown _ _⟩
  · exact ⟨h, .refl _ _⟩
  · rcases hh with ⟨u, v, m, rfl, rfl, hv⟩ | ⟨u, v, m, rfl, rfl, hv⟩ | ⟨u, v, u', v', m, rfl, rfl, hv, hv'⟩ |
      ⟨u, v, nm, r, m, rfl, rfl, hv⟩
    · exact ⟨rfl, .inr (.inr (.inl ⟨u, v, m, rfl, rfl, hv⟩))⟩
    all_goals simp [checkSlice] at h

theorem iterVarType_vague {k : Nat} {c c' t : DataType} (vc : Vaguer k c' c) (h : iterVarType c = .ok t) :
    ∃ t', iterVarType c' = .ok t' ∧ Vaguer (k - 1) t' t := by
  rcases vc.cases with rfl | rfl | ⟨j, rfl, hh⟩
  · exact ⟨_, rfl, .unknown _ _⟩
  · exact ⟨t, h, .refl _ _⟩
  · rcases hh with ⟨u, v, m, rfl, rfl, hv⟩ | ⟨u, v, m, rfl, rfl, hv⟩ | ⟨u, v, u', v', m, rfl, rfl, hv, hv'⟩ |
      ⟨u, v, nm, r, m, rfl, rfl, hv⟩
    · cases h; exact ⟨u, rfl, hv⟩
    · cases h; exact ⟨u, rfl, hv⟩
    · cases h; exact ⟨u, rfl, hv⟩
    · cases h

theorem ternNodeType_vague {t u t' u' : DataType} (vt : Vaguer 0 t' t) (vu : Vaguer 0 u' u) :
    Vaguer 0 (ternNodeType t' u') (ternNodeType t u) := by
  rcases vt with rfl | rfl
  · left
    unfold ternNodeType
    cases u' <;> rfl
  · rcases vu with rfl | rfl
    · left
      unfold ternNodeType
      cases t' <;> rfl
    · exact .inr rfl

theorem validateCall_min (m : Option Nat) (len : Nat) :
    (∀ n r ts (as : List DataType), as.length = len → validateCall (.function n r ts m) as = badArg) ∨
    (∀ n r ts (as : List DataType), as.length = len → validateCall (.function n r ts m) as =
      match ts with
      | none => .ok ()
      | some ts => if as.length > ts.length then badArg
        else if (as.zip ts).all (fun p => DataType.compat p.1 p.2) then .ok () else badArg) := by
  cases m with
  | none => exact .inr fun n r ts as _ => rfl
  | some m =>
    by_cases h : len < m
    · left
      intro n r ts as ha
      simp [validateCall, ha, h]
    · right
      intro n r ts as ha
      simp only [validateCall, ha, h, decide_false, Bool.false_eq_true, if_false]
      rfl

theorem validateCall_vague {k : Nat} {f f' : DataType} (vf : Vaguer k f' f) {as as' : List DataType}
    (ha : List.Forall₂ (fun a' a => ∃ k, Vaguer k a' a) as' as) (h : validateCall f as = .ok ()) :
    f' = .undefined ∨ validateCall f' as' = .ok () := by
  have hz : ∀ ts : List DataType, (as.zip ts).all (fun p => DataType.compat p.1 p.2) = true →
      (as'.zip ts).all (fun p => DataType.compat p.1 p.2) = true := by
    clear h
    induction ha with
    | nil => exact fun _ h => h
    | @cons a' a l' l h _ ih =>
      intro ts hts
      cases ts with
      | nil => rfl
      | cons t ts =>
        simp only [List.zip_cons_cons, List.all_cons, Bool.and_eq_true] at hts ⊢
        obtain ⟨k, hk⟩ := h
        exact ⟨hk.compat hts.1, ih ts hts.2⟩
  have hlen := ha.length_eq
  rcases vf.cases with rfl | rfl | ⟨j, rfl, hh⟩
  · exact .inl rfl
  · right
    cases f' with
    | function n r ts m =>
      rcases validateCall_min m as.length with hm | hm
      · rw [hm _ _ _ _ rfl] at h; cases h
      · rw [hm _ _ _ _ rfl] at h
        rw [hm _ _ _ _ hlen]
        cases ts with
        | none => rfl
        | some ts =>
          simp only [hlen] at h ⊢
          by_cases h1 : as.length > ts.length
          · rw [if_pos h1] at h; cases h
          · rw [if_neg h1] at h ⊢
            by_cases h2 : (as.zip ts).all (fun p => DataType.compat p.1 p.2) = true
            · rw [if_pos (hz ts h2)]
            · rw [if_neg h2] at h; cases h
    | _ => cases h
  · rcases hh with ⟨u, v, m, rfl, rfl, hv⟩ | ⟨u, v, m, rfl, rfl, hv⟩ | ⟨u, v, u', v', m, rfl, rfl, hv, hv'⟩ |
      ⟨u, v, nm, r, m, rfl, rfl, hv⟩
    · cases h
    · cases h
    · cases h
    · right
      rcases validateCall_min m as.length with hm | hm
      · rw [hm _ _ _ _ rfl] at h; cases h
      · rw [hm _ _ _ _ rfl] at h
        rw [hm _ _ _ _ hlen]
        simp only [List.length_cons, List.length_nil, hlen] at h ⊢
        by_cases h1 : as.length > 0 + 1
        · rw [if_pos h1] at h; cases h
        · rw [if_neg h1] at h ⊢
          by_cases h2 : (as.zip [v]).all (fun p => DataType.compat p.1 p.2) = true
          · have h3 := hz [v] h2
            have : (as'.zip [u]).all (fun p => DataType.compat p.1 p.2) = true := by
              cases as' with
              | nil => rfl
              | cons a l =>
                simp only [List.zip_cons_cons, List.zip_nil_right, List.all_cons, List.all_nil, Bool.and_true] at h3 ⊢
                exact hv.compat_right h3
            rw [if_pos this]
          · rw [if_neg h2] at h; cases h

/-! ### The construction of rules with fewer types -/

mutual
theorem vague_refl_reduced : ∀ e : Expr, e.reduced = true → e.Vague e
  | .lit v t, _ => by simp only [Expr.Vague]
  | .array xs, h => by
    simp only [Expr.Vague]
    exact ⟨xs, vague_refl_reducedList xs h, rfl⟩
  | .set xs, h => by
    simp only [Expr.Vague]
    exact ⟨xs, vague_refl_reducedList xs h, rfl⟩
  | .mapping kvs, h => by
    simp only [Expr.Vague]
    exact ⟨kvs, vague_refl_reducedPairs kvs h, rfl⟩
theorem vague_refl_reducedList : ∀ xs : List Expr, Expr.reducedList xs = true → Expr.VagueList xs xs
  | [], _ => by simp only [Expr.VagueList]
  | x :: xs, h => by
    simp only [Expr.reducedList, Bool.and_eq_true] at h
    simp only [Expr.VagueList]
    exact ⟨x, xs, vague_refl_reduced x h.1, vague_refl_reducedList xs h.2, rfl⟩
theorem vague_refl_reducedPairs : ∀ xs : List (Expr × Expr), Expr.reducedPairs xs = true → Expr.VaguePairs xs xs
  | [], _ => by simp only [Expr.VaguePairs]
  | (k, v) :: xs, h => by
    simp only [Expr.reducedPairs, Bool.and_eq_true] at h
    simp only [Expr.VaguePairs]
    exact ⟨k, v, xs, vague_refl_reduced k h.1.1, vague_refl_reduced v h.1.2, vague_refl_reducedPairs xs h.2, rfl⟩
end

/-- the second expression is the first with fewer types; it is the first if `c` -/
structure Fewer (k : Nat) (c : Bool) (e e' : Expr) : Prop where
  vague : e.Vague e'
  rt : Vaguer k e'.rt e.rt
  same : c = true → e' = e

theorem Fewer.of_reduced (k : Nat) (c : Bool) {e : Expr} (h : e.reduced = true) : Fewer k c e e :=
  ⟨vague_refl_reduced e h, .refl _ _, fun _ => rfl⟩

theorem litOf_reduced {off : TzDb} {v : Value} {e : Expr} (h : litOf off v = .ok e) : e.reduced = true := by
  unfold litOf at h
  cases hf : fromValue v with
  | error _ => rw [hf] at h; cases h
  | ok t =>
    rw [hf] at h
    cases h
    exact Expr.ofValue_reduced _ v

section
variable {env : Env} {t' : String → Except Err DataType} {dct : DecCtx}
  {Γ Γ' : List Assignment}

theorem foldLit_fewer (hΓ : SameVals Γ Γ') (k : Nat) (c : Bool) {node : Expr}
    (hn : node.allNames (fun _ _ _ => False) (fun _ => True)) :
    Refines (Fewer k c) Γ Γ' (foldLit env dct node) (foldLit (env.alt env.resolver t' env.defaultValue) dct node) :=
  (fold_refines hΓ hn).bind fun a a' h => by
    subst h
    exact .lift fun e he => ⟨e, he, .of_reduced k c (litOf_reduced he)⟩

theorem mkBin_fewer (hΓ : SameVals Γ Γ') {op : BinOp} {l l' r r' : Expr} {j k : Nat} {a b : Bool}
    (hl : Fewer j a l l') (hr : Fewer k b r r') (hc : ∀ o, op = .cmp o → j = 0 ∧ k = 0) :
    Refines (Fewer 0 (a && b)) Γ Γ' (mkBin env dct op l r)
      (mkBin (env.alt env.resolver t' env.defaultValue) dct op l' r') := by
  unfold mkBin
  refine Refines.bind (P := fun _ _ => op.check env l r = .ok ())
    (.lift fun u hu => ⟨u, (check_vague hl.vague hr.vague hl.rt hr.rt hc hu).1, hu⟩) fun _ _ hcheck => ?_
  have h1 := vague_reduced l l' hl.vague
  have h2 := vague_reduced r r' hr.vague
  rw [h1.1, h2.1]
  by_cases hb : (l.reduced && r.reduced) = true
  · rw [if_pos hb, if_pos hb]
    rw [Bool.and_eq_true] at hb
    rw [h1.2 hb.1, h2.2 hb.2]
    refine foldLit_fewer hΓ _ _ ?_
    simp only [Expr.allNames]
    exact ⟨l.allNames_of_reduced hb.1, r.allNames_of_reduced hb.2⟩
  · rw [if_neg hb, if_neg hb]
    refine .pure ⟨?_, (check_vague (t' := t') hl.vague hr.vague hl.rt hr.rt hc hcheck).2, fun h => ?_⟩
    · simp only [Expr.Vague]
      exact ⟨l', r', hl.vague, hr.vague, rfl⟩
    · rw [Bool.and_eq_true] at h
      rw [hl.same h.1, hr.same h.2]

theorem mkContains_fewer (hΓ : SameVals Γ Γ') {c c' m m' : Expr} {j k : Nat} {a b : Bool}
    (hc : Fewer j a c c') (hm : Fewer k b m m') :
    Refines (Fewer 0 (a && b)) Γ Γ' (mkContains env dct c m)
      (mkContains (env.alt env.resolver t' env.defaultValue) dct c' m') := by
  unfold mkContains
  refine Refines.bind (P := fun _ _ => True)
    (.lift fun u hu => ⟨u, checkContains_vague hc.rt hm.rt hu, trivial⟩) fun _ _ _ => ?_
  have h1 := vague_reduced c c' hc.vague
  have h2 := vague_reduced m m' hm.vague
  rw [h1.1, h2.1]
  by_cases hb : (c.reduced && m.reduced) = true
  · rw [if_pos hb, if_pos hb]
    rw [Bool.and_eq_true] at hb
    rw [h1.2 hb.1, h2.2 hb.2]
    refine (fold_refines hΓ ?_).bind fun v v' hv => ?_
    · simp only [Expr.allNames]
      exact ⟨c.allNames_of_reduced hb.1, m.allNames_of_reduced hb.2⟩
    · subst hv
      exact .pure (.of_reduced _ _ rfl)
  · rw [if_neg hb, if_neg hb]
    refine .pure ⟨?_, .refl _ _, fun h => ?_⟩
    · simp only [Expr.Vague]
      exact ⟨c', m', hc.vague, hm.vague, rfl⟩
    · rw [Bool.and_eq_true] at h
      rw [hc.same h.1, hm.same h.2]

theorem mkGetAttr_fewer (hΓ : SameVals Γ Γ') {o o' : Expr} {k : Nat} {a : Bool} (ho : Fewer k a o o') (n : String)
    (safe : Bool) :
    Refines (Fewer (attrDepth k n) a) Γ Γ' (mkGetAttr env dct o n safe)
      (mkGetAttr (env.alt env.resolver t' env.defaultValue) dct o' n safe) := by
  unfold mkGetAttr
  refine Refines.bind (P := fun _ _ => checkAttr o.rt n safe = .ok ())
    (.lift fun u hu => ⟨u, (checkAttr_vague ho.rt n safe hu).1, hu⟩) fun _ _ hcheck => ?_
  have h1 := vague_reduced o o' ho.vague
  simp only
  rw [h1.1]
  by_cases hb : o.reduced = true
  · rw [if_pos hb, if_pos hb]
    rw [h1.2 hb]
    refine Refines.bind (P := fun e e' => e.reduced = true ∧ e' = e) ?_ fun e e' he => ?_
    · refine (fold_refines hΓ ?_).bind fun v v' hv => ?_
      · simp only [Expr.allNames]
        exact ⟨o.allNames_of_reduced hb, trivial⟩
      · subst hv
        exact .lift fun e he => ⟨e, he, litOf_reduced he, rfl⟩
    · obtain ⟨he, rfl⟩ := he
      generalize attrDepth k n = K
      split
      · split
        · exact .pure (.of_reduced _ _ rfl)
        · exact .pure (.of_reduced _ _ rfl)
      · exact .pure (.of_reduced _ _ he)
  · rw [if_neg hb, if_neg hb]
    refine .pure ⟨?_, (checkAttr_vague ho.rt n safe hcheck).2, fun h => ?_⟩
    · simp only [Expr.Vague]
      exact ⟨o', ho.vague, rfl⟩
    · rw [ho.same h]

theorem mkGetItem_fewer (hΓ : SameVals Γ Γ') {c c' i i' : Expr} {j k : Nat} {a b : Bool}
    (hc : Fewer j a c c') (hi : Fewer k b i i') :
    Refines (Fewer (j - 1) (a && b)) Γ Γ' (mkGetItem env dct c i false)
      (mkGetItem (env.alt env.resolver t' env.defaultValue) dct c' i' false) := by
  have hs : ∀ x y, staticMiss x y false = false := by
    intro x y
    cases x <;> rfl
  unfold mkGetItem
  refine Refines.bind (P := fun _ _ => checkItem c.rt i.rt false = .ok ())
    (.lift fun u hu => ⟨u, (checkItem_vague hc.rt hi.rt hu).1, hu⟩) fun _ _ hcheck => ?_
  have h1 := vague_reduced c c' hc.vague
  have h2 := vague_reduced i i' hi.vague
  rw [h1.1, h2.1, hs, hs]
  simp only [Bool.false_eq_true, if_false]
  by_cases hb : (c.reduced && i.reduced) = true
  · rw [if_pos hb, if_pos hb]
    rw [Bool.and_eq_true] at hb
    rw [h1.2 hb.1, h2.2 hb.2]
    refine foldLit_fewer hΓ _ _ ?_
    simp only [Expr.allNames]
    exact ⟨c.allNames_of_reduced hb.1, i.allNames_of_reduced hb.2⟩
  · rw [if_neg hb, if_neg hb]
    refine .pure ⟨?_, (checkItem_vague hc.rt hi.rt hcheck).2, fun h => ?_⟩
    · simp only [Expr.Vague]
      exact ⟨c', i', hc.vague, hi.vague, rfl⟩
    · rw [Bool.and_eq_true] at h
      rw [hc.same h.1, hi.same h.2]

theorem mkGetSlice_fewer (hΓ : SameVals Γ Γ') {c c' x x' y y' : Expr} {j k l : Nat} {a b d : Bool}
    (hc : Fewer j a c c') (hx : Fewer k b x x') (hy : Fewer l d y y') (safe : Bool) :
    Refines (Fewer j (a && b && d)) Γ Γ' (mkGetSlice env dct c x y safe)
      (mkGetSlice (env.alt env.resolver t' env.defaultValue) dct c' x' y' safe) := by
  unfold mkGetSlice
  refine Refines.bind (P := fun _ _ => checkSlice c.rt safe = .ok ())
    (.lift fun u hu => ⟨u, (checkSlice_vague hc.rt safe hu).1, hu⟩) fun _ _ hcheck => ?_
  have h1 := vague_reduced c c' hc.vague
  have h2 := vague_reduced x x' hx.vague
  have h3 := vague_reduced y y' hy.vague
  rw [h1.1, h2.1, h3.1]
  by_cases hb : (c.reduced && x.reduced && y.reduced) = true
  · rw [if_pos hb, if_pos hb]
    simp only [Bool.and_eq_true] at hb
    rw [h1.2 hb.1.1, h2.2 hb.1.2, h3.2 hb.2]
    refine foldLit_fewer hΓ _ _ ?_
    simp only [Expr.allNames]
    exact ⟨c.allNames_of_reduced hb.1.1, x.allNames_of_reduced hb.1.2, y.allNames_of_reduced hb.2⟩
  · rw [if_neg hb, if_neg hb]
    refine .pure ⟨?_, (checkSlice_vague hc.rt safe hcheck).2, fun h => ?_⟩
    · simp only [Expr.Vague]
      exact ⟨c', x', y', hc.vague, hx.vague, hy.vague, rfl⟩
    · simp only [Bool.and_eq_true] at h
      rw [hc.same h.1.1, hx.same h.1.2, hy.same h.2]

/-- the same for lists -/
structure FewerList (D : DataType → DataType → Prop) (c : Bool) (es es' : List Expr) : Prop where
  vague : Expr.VagueList es es'
  rts : List.Forall₂ D (Expr.rts es') (Expr.rts es)
  same : c = true → es' = es

/-- the same for items -/
structure FewerPairs (c : Bool) (es es' : List (Expr × Expr)) : Prop where
  vague : Expr.VaguePairs es es'
  keys : List.Forall₂ (Vaguer 0) (Expr.keyRts es') (Expr.keyRts es)
  vals : List.Forall₂ (Vaguer 0) (Expr.valRts es') (Expr.valRts es)
  same : c = true → es' = es

theorem mkCall_bind (env : Env) (dct : DecCtx) (f : Expr) (as : List Expr) : mkCall env dct f as =
    ((if DataType.eq f.rt .undefined then pure () else M.lift (validateCall f.rt (Expr.rts as))) >>= fun _ =>
      if f.reduced && Expr.reducedList as then foldLit env dct (.call f as) else pure (.call f as)) := by
  unfold mkCall
  by_cases h : DataType.eq f.rt .undefined = true
  · simp only [h, if_true, pure_bind]
  · simp only [h, Bool.false_eq_true, if_false]

theorem mkCall_fewer (hΓ : SameVals Γ Γ') {f f' : Expr} {as as' : List Expr} {k : Nat} {a b : Bool}
    (hf : Fewer k a f f') (ha : FewerList (fun x y => ∃ k, Vaguer k x y) b as as') :
    Refines (Fewer 0 (a && b)) Γ Γ' (mkCall env dct f as)
      (mkCall (env.alt env.resolver t' env.defaultValue) dct f' as') := by
  rw [mkCall_bind, mkCall_bind]
  refine Refines.bind (P := fun _ _ => f.rt = .undefined ∨ f.rt.isFunction = true) ?_ fun _ _ hcheck => ?_
  · by_cases hu : DataType.eq f.rt .undefined = true
    · have he : f.rt = .undefined := eq_undefined.1 hu
      have he' : f'.rt = .undefined := by
        have := hf.rt
        rw [he] at this
        exact this.of_undefined
      rw [he, he']
      exact .pure (.inl rfl)
    · rw [if_neg hu]
      by_cases hu' : DataType.eq f'.rt .undefined = true
      · rw [if_pos hu']
        refine ⟨fun s s' hs hs' x hx => ⟨(), rfl, .inr ?_, hs, hs'⟩⟩
        have hx' : validateCall f.rt (Expr.rts as) = .ok x := hx
        cases hfr : f.rt <;> rw [hfr] at hx' <;> first | rfl | cases hx'
      · rw [if_neg hu']
        refine .lift fun u hu2 => ?_
        rcases validateCall_vague hf.rt ha.rts hu2 with h | h
        · exact (hu' (by rw [h]; rfl)).elim
        · refine ⟨(), h, .inr ?_⟩
          cases hfr : f.rt <;> rw [hfr] at hu2 <;> first | rfl | cases hu2
  have h1 := vague_reduced f f' hf.vague
  have h2 := vague_reducedList as as' ha.vague
  rw [h1.1, h2.1]
  by_cases hb : (f.reduced && Expr.reducedList as) = true
  · rw [if_pos hb, if_pos hb]
    rw [Bool.and_eq_true] at hb
    rw [h1.2 hb.1, h2.2 hb.2]
    refine foldLit_fewer hΓ _ _ ?_
    simp only [Expr.allNames]
    exact ⟨f.allNames_of_reduced hb.1, Expr.allNamesList_of_reduced as hb.2⟩
  · rw [if_neg hb, if_neg hb]
    refine .pure ⟨?_, callNodeType_vaguer hf.rt, fun h => ?_⟩
    · simp only [Expr.Vague]
      exact ⟨hcheck, f', as', k, hf.vague, hf.rt, ha.vague, rfl⟩
    · rw [Bool.and_eq_true] at h
      rw [hf.same h.1, ha.same h.2]

theorem mkTern_fewer {c c' t u t1 u1 : Expr} {k : Nat} {a b d : Bool} (hc : Fewer k a c c') (ht : Fewer 0 b t t1)
    (hu : Fewer 0 d u u1) : Fewer 0 (a && b && d) (mkTern c t u) (mkTern c' t1 u1) := by
  have h1 := vague_reduced c c' hc.vague
  unfold mkTern
  rw [h1.1]
  by_cases hb : c.reduced = true
  · rw [if_pos hb, if_pos hb, h1.2 hb]
    by_cases hl : c.litTruthy = true
    · rw [if_pos hl, if_pos hl]
      exact ⟨ht.vague, ht.rt, fun h => by simp only [Bool.and_eq_true] at h; exact ht.same h.1.2⟩
    · rw [if_neg hl, if_neg hl]
      exact ⟨hu.vague, hu.rt, fun h => by simp only [Bool.and_eq_true] at h; exact hu.same h.2⟩
  · rw [if_neg hb, if_neg hb]
    refine ⟨?_, ternNodeType_vague ht.rt hu.rt, fun h => ?_⟩
    · simp only [Expr.Vague]
      exact ⟨c', t1, u1, hc.vague, ht.vague, hu.vague, rfl⟩
    · simp only [Bool.and_eq_true] at h
      rw [hc.same h.1.1, ht.same h.1.2, hu.same h.2]

theorem mkNot_fewer (hΓ : SameVals Γ Γ') {e e' : Expr} {k : Nat} {a : Bool} (he : Fewer k a e e') :
    Refines (Fewer 0 a) Γ Γ' (mkNot env dct e) (mkNot (env.alt env.resolver t' env.defaultValue) dct e') := by
  have h1 := vague_reduced e e' he.vague
  unfold mkNot
  rw [h1.1]
  by_cases hb : e.reduced = true
  · rw [if_pos hb, if_pos hb, h1.2 hb]
    refine (fold_refines hΓ ?_).bind fun v v' hv => ?_
    · simp only [Expr.allNames]
      exact e.allNames_of_reduced hb
    · subst hv
      exact .pure (.of_reduced _ _ rfl)
  · rw [if_neg hb, if_neg hb]
    refine .pure ⟨?_, .refl _ _, fun h => ?_⟩
    · simp only [Expr.Vague]
      exact ⟨e', he.vague, rfl⟩
    · rw [he.same h]

theorem mkNeg_fewer (hΓ : SameVals Γ Γ') {e e' : Expr} {k : Nat} {a : Bool} (he : Fewer k a e e') :
    Refines (Fewer k a) Γ Γ' (mkNeg env dct e) (mkNeg (env.alt env.resolver t' env.defaultValue) dct e') := by
  have h1 := vague_reduced e e' he.vague
  unfold mkNeg
  rw [h1.1]
  by_cases hb : e.reduced = true
  · rw [if_pos hb, if_pos hb, h1.2 hb]
    have hn : (Expr.neg e).allNames (fun _ _ _ => False) (fun _ => True) := by
      simp only [Expr.allNames]
      exact e.allNames_of_reduced hb
    split
    · refine (fold_refines hΓ hn).bind fun v v' hv => ?_
      subst hv
      exact .pure (.of_reduced _ _ rfl)
    · refine (fold_refines hΓ hn).bind fun v v' hv => ?_
      subst hv
      exact .pure (.of_reduced _ _ rfl)
    · exact .throw
  · rw [if_neg hb, if_neg hb]
    refine .pure ⟨?_, he.rt, fun h => ?_⟩
    · simp only [Expr.Vague]
      exact ⟨e', he.vague, rfl⟩
    · rw [he.same h]

end

section
variable {env : Env} {t' : String → Except Err DataType} (ht : ∀ n, t' n = .ok .undefined ∨ t' n = env.typeResolver n)
  (dct : DecCtx)
include ht

theorem mkSym_fewer {vars : List (String × Nat)} {Γ Γ' : List Assignment} (hΓ : Related vars Γ Γ') (n : String)
    (b : Bool) (hd : (Raw.sym n b).depth vars ≤ 1) :
    Refines (Fewer ((Raw.sym n b).depth vars) false) Γ Γ' (mkSym env n b)
      (mkSym (env.alt env.resolver t' env.defaultValue) n b) := by
  refine ⟨fun s s' hs hs' e he => ?_⟩
  have fin : ∀ t u, Vaguer ((Raw.sym n b).depth vars) u t →
      Fewer ((Raw.sym n b).depth vars) false (.sym n t b) (.sym n u b) := by
    intro t u h
    refine ⟨?_, h, fun h => by cases h⟩
    simp only [Expr.Vague]
    exact ⟨u, h.mono hd, rfl⟩
  cases b with
  | true =>
    simp only [mkSym, M.bind_apply, M.modify, ctxResolveType, if_true, M.pure_apply] at he ⊢
    cases he
    exact ⟨_, rfl, fin _ _ (.refl _ _), hs, hs'⟩
  | false =>
    simp only [mkSym, M.bind_apply, M.modify, ctxResolveType, Bool.false_eq_true, if_false, hs, hs'] at he ⊢
    rcases related_lookup hΓ n with ⟨h1, h2⟩ | ⟨a, a', h1, h2, h3⟩
    · rw [h1] at he
      rw [h1, h2]
      simp only [Env.alt] at he ⊢
      cases hr : env.typeResolver n with
      | error x => rw [hr] at he; cases he
      | ok t =>
        rw [hr] at he
        cases he
        rcases ht n with h | h
        · rw [h]
          exact ⟨_, rfl, fin _ _ (.unknown _ _), rfl, rfl⟩
        · rw [h, hr]
          exact ⟨_, rfl, fin _ _ (.refl _ _), rfl, rfl⟩
    · rw [h1] at he
      rw [h1, h2]
      cases he
      exact ⟨_, rfl, fin _ _ h3, rfl, rfl⟩

mutual
theorem build_fewer : ∀ (raw : Raw) (vars : List (String × Nat)) (Γ Γ' : List Assignment), raw.Even vars →
    Related vars Γ Γ' → Refines (Fewer (raw.depth vars) raw.closed) Γ Γ' (build env dct raw)
      (build (env.alt env.resolver t' env.defaultValue) dct raw)
  | .lit v, vars, Γ, Γ', h, hΓ => by
    simp only [build]
    refine .lift fun e he => ⟨e, he, ?_⟩
    rw [except_bind_ok] at he
    obtain ⟨t, -, h2⟩ := he
    cases h2
    exact .of_reduced _ _ rfl
  | .floatLit x, vars, Γ, Γ', h, hΓ => by
    simp only [build]
    refine .lift fun e he => ⟨e, he, ?_⟩
    rw [except_bind_ok] at he
    obtain ⟨t, -, h2⟩ := he
    cases h2
    exact .of_reduced _ _ rfl
  | .datetimeLit x, vars, Γ, Γ', h, hΓ => by
    simp only [build]
    refine .lift fun e he => ⟨e, he, ?_⟩
    rw [except_bind_ok] at he
    obtain ⟨t, -, h2⟩ := he
    cases h2
    exact .of_reduced _ _ rfl
  | .timedeltaLit x, vars, Γ, Γ', h, hΓ => by
    simp only [build]
    refine .lift fun e he => ⟨e, he, ?_⟩
    rw [except_bind_ok] at he
    obtain ⟨t, -, h2⟩ := he
    cases h2
    exact .of_reduced _ _ rfl
  | .array xs, vars, Γ, Γ', h, hΓ => by
    simp only [build, Raw.Even] at h ⊢
    refine (buildList_fewer xs vars Γ Γ' h hΓ).bind fun es es' hes => .pure ⟨?_, ?_, fun hc => ?_⟩
    · simp only [Expr.Vague]
      exact ⟨es', hes.vague, rfl⟩
    · simp only [Raw.depth, Expr.rt]
      split
      · rename_i hc
        rw [hes.same hc]
        exact .refl _ _
      · exact .inr (.inr (.inl ⟨_, _, _, rfl, rfl, vaguer_members hes.rts⟩))
    · rw [hes.same hc]
  | .set xs, vars, Γ, Γ', h, hΓ => by
    simp only [build, Raw.Even] at h ⊢
    refine (buildList_fewer xs vars Γ Γ' h hΓ).bind fun es es' hes => .pure ⟨?_, ?_, fun hc => ?_⟩
    · simp only [Expr.Vague]
      exact ⟨es', hes.vague, rfl⟩
    · simp only [Raw.depth, Expr.rt]
      split
      · rename_i hc
        rw [hes.same hc]
        exact .refl _ _
      · exact .inr (.inr (.inr (.inl ⟨_, _, _, rfl, rfl, vaguer_members hes.rts⟩)))
    · rw [hes.same hc]
  | .mapping kvs, vars, Γ, Γ', h, hΓ => by
    simp only [build, Raw.Even] at h ⊢
    refine (buildPairs_fewer kvs vars Γ Γ' h hΓ).bind fun es es' hes => .lift fun e he => ?_
    have hk := vaguer_members hes.keys
    have hv := vaguer_members hes.vals
    unfold mkMapping at he ⊢
    rw [except_bind_ok] at he
    obtain ⟨t, h1, h2⟩ := he
    cases h2
    refine ⟨.mapping es', ?_, ⟨?_, ?_, fun hc => ?_⟩⟩
    · rcases hk with hk | hk
      · rw [hk]; rfl
      · rw [hk]
        unfold mkMappingType at h1 ⊢
        split at h1
        · cases h1
        · rw [if_neg ‹_›]; rfl
    · simp only [Expr.Vague]
      exact ⟨es', hes.vague, rfl⟩
    · simp only [Raw.depth, Expr.rt]
      split
      · rename_i hc
        rw [hes.same hc]
        exact .refl _ _
      · exact .inr (.inr (.inr (.inr (.inl ⟨_, _, _, _, _, rfl, rfl, hk, hv⟩))))
    · rw [hes.same hc]
  | .bin op l r, vars, Γ, Γ', h, hΓ => by
    simp only [build, Raw.Even] at h ⊢
    refine (build_fewer l vars Γ Γ' h.1 hΓ).bind fun l1 l2 hl => (build_fewer r vars Γ Γ' h.2.1 hΓ).bind fun r1 r2 hr => ?_
    refine mkBin_fewer hΓ.same hl hr fun o ho => ?_
    subst ho
    exact h.2.2
  | .comp result var iterable cond, vars, Γ, Γ', h, hΓ => by
    simp only [build, Raw.Even] at h ⊢
    refine (build_fewer iterable vars Γ Γ' h.1 hΓ).bind fun it it' hit => ?_
    refine Refines.bind (P := fun t u => Vaguer (iterable.depth vars - 1) u t)
      (.lift fun t h => iterVarType_vague hit.rt h) fun t u htu => ?_
    refine Refines.bind (P := fun p q => (∃ k b, Fewer k b p.1 q.1) ∧
      Fewer (result.depth ((var, iterable.depth vars - 1) :: vars)) false p.2 q.2) (.withScope ?_)
      fun p q hpq => ?_
    · have hΓ2 := hΓ.push var .undef htu
      refine (build_fewer cond _ _ _ h.2.2 hΓ2).bind fun c c' hc => (build_fewer result _ _ _ h.2.1 hΓ2).bind fun r r' hr => ?_
      exact .pure ⟨⟨_, _, hc⟩, hr.vague, hr.rt, fun h => by cases h⟩
    · obtain ⟨⟨k, b, hc⟩, hr⟩ := hpq
      refine .pure ⟨?_, ?_, fun h => by cases h⟩
      · simp only [Expr.Vague]
        exact ⟨q.2, it', q.1, hr.vague, hit.vague, hc.vague, rfl⟩
      · exact .inr (.inr (.inl ⟨_, _, _, rfl, rfl, hr.rt⟩))
  | .contains c m, vars, Γ, Γ', h, hΓ => by
    simp only [build, Raw.Even] at h ⊢
    exact (build_fewer c vars Γ Γ' h.1 hΓ).bind fun l1 l2 hl => (build_fewer m vars Γ Γ' h.2 hΓ).bind fun r1 r2 hr =>
      mkContains_fewer hΓ.same hl hr
  | .getAttr o n safe, vars, Γ, Γ', h, hΓ => by
    simp only [build, Raw.Even] at h ⊢
    exact (build_fewer o vars Γ Γ' h hΓ).bind fun o1 o2 ho => mkGetAttr_fewer hΓ.same ho n safe
  | .getItem c i safe, vars, Γ, Γ', h, hΓ => by
    simp only [build, Raw.Even] at h ⊢
    obtain ⟨rfl, hc, hi⟩ := h
    exact (build_fewer c vars Γ Γ' hc hΓ).bind fun l1 l2 hl => (build_fewer i vars Γ Γ' hi hΓ).bind fun r1 r2 hr =>
      mkGetItem_fewer hΓ.same hl hr
  | .getSlice c a b safe, vars, Γ, Γ', h, hΓ => by
    simp only [build, Raw.Even] at h ⊢
    exact (build_fewer a vars Γ Γ' h.2.1 hΓ).bind fun a1 a2 ha => (build_fewer b vars Γ Γ' h.2.2 hΓ).bind fun b1 b2 hb =>
      (build_fewer c vars Γ Γ' h.1 hΓ).bind fun c1 c2 hc => mkGetSlice_fewer hΓ.same hc ha hb safe
  | .sym n b, vars, Γ, Γ', h, hΓ => by
    simp only [build, Raw.Even] at h ⊢
    exact mkSym_fewer ht hΓ n b h
  | .call f args, vars, Γ, Γ', h, hΓ => by
    simp only [build, Raw.Even] at h ⊢
    exact (build_fewer f vars Γ Γ' h.1 hΓ).bind fun f1 f2 hf => (buildArgs_fewer args vars Γ Γ' h.2 hΓ).bind fun a1 a2 ha =>
      mkCall_fewer hΓ.same hf ha
  | .tern c t f, vars, Γ, Γ', h, hΓ => by
    simp only [build, Raw.Even] at h ⊢
    obtain ⟨hc, h2, h3, d2, d3⟩ := h
    refine (build_fewer c vars Γ Γ' hc hΓ).bind fun c1 c2 hc => (build_fewer t vars Γ Γ' h2 hΓ).bind fun t1 t2 ht2 =>
      (build_fewer f vars Γ Γ' h3 hΓ).bind fun f1 f2 hf => ?_
    rw [d2] at ht2
    rw [d3] at hf
    exact .pure (mkTern_fewer hc ht2 hf)
  | .not e, vars, Γ, Γ', h, hΓ => by
    simp only [build, Raw.Even] at h ⊢
    exact (build_fewer e vars Γ Γ' h hΓ).bind fun o1 o2 ho => mkNot_fewer hΓ.same ho
  | .neg e, vars, Γ, Γ', h, hΓ => by
    simp only [build, Raw.Even] at h ⊢
    exact (build_fewer e vars Γ Γ' h hΓ).bind fun o1 o2 ho => mkNeg_fewer hΓ.same ho
theorem buildList_fewer : ∀ (raws : List Raw) (vars : List (String × Nat)) (Γ Γ' : List Assignment),
    Raw.EvenList vars raws → Related vars Γ Γ' →
    Refines (FewerList (Vaguer 0) (Raw.closedList raws)) Γ Γ' (buildList env dct raws)
      (buildList (env.alt env.resolver t' env.defaultValue) dct raws)
  | [], vars, Γ, Γ', h, hΓ => by
    simp only [buildList]
    exact .pure ⟨by simp only [Expr.VagueList], .nil, fun _ => rfl⟩
  | x :: xs, vars, Γ, Γ', h, hΓ => by
    simp only [buildList, Raw.EvenList] at h ⊢
    refine (build_fewer x vars Γ Γ' h.1 hΓ).bind fun e e' he => (buildList_fewer xs vars Γ Γ' h.2.2 hΓ).bind fun es es' hes => ?_
    rw [h.2.1] at he
    refine .pure ⟨?_, .cons he.rt hes.rts, fun hc => ?_⟩
    · simp only [Expr.VagueList]
      exact ⟨e', es', he.vague, hes.vague, rfl⟩
    · simp only [Raw.closedList, Bool.and_eq_true] at hc
      rw [he.same hc.1, hes.same hc.2]
theorem buildArgs_fewer : ∀ (raws : List Raw) (vars : List (String × Nat)) (Γ Γ' : List Assignment),
    Raw.EvenArgs vars raws → Related vars Γ Γ' →
    Refines (FewerList (fun a b => ∃ k, Vaguer k a b) (Raw.closedList raws)) Γ Γ' (buildList env dct raws)
      (buildList (env.alt env.resolver t' env.defaultValue) dct raws)
  | [], vars, Γ, Γ', h, hΓ => by
    simp only [buildList]
    exact .pure ⟨by simp only [Expr.VagueList], .nil, fun _ => rfl⟩
  | x :: xs, vars, Γ, Γ', h, hΓ => by
    simp only [buildList, Raw.EvenArgs] at h ⊢
    refine (build_fewer x vars Γ Γ' h.1 hΓ).bind fun e e' he => (buildArgs_fewer xs vars Γ Γ' h.2 hΓ).bind fun es es' hes => ?_
    refine .pure ⟨?_, .cons ⟨_, he.rt⟩ hes.rts, fun hc => ?_⟩
    · simp only [Expr.VagueList]
      exact ⟨e', es', he.vague, hes.vague, rfl⟩
    · simp only [Raw.closedList, Bool.and_eq_true] at hc
      rw [he.same hc.1, hes.same hc.2]
theorem buildPairs_fewer : ∀ (raws : List (Raw × Raw)) (vars : List (String × Nat)) (Γ Γ' : List Assignment),
    Raw.EvenPairs vars raws → Related vars Γ Γ' →
    Refines (FewerPairs (Raw.closedPairs raws)) Γ Γ' (buildPairs env dct raws)
      (buildPairs (env.alt env.resolver t' env.defaultValue) dct raws)
  | [], vars, Γ, Γ', h, hΓ => by
    simp only [buildPairs]
    exact .pure ⟨by simp only [Expr.VaguePairs], .nil, .nil, fun _ => rfl⟩
  | (k, v) :: xs, vars, Γ, Γ', h, hΓ => by
    simp only [buildPairs, Raw.EvenPairs] at h ⊢
    refine (build_fewer k vars Γ Γ' h.1 hΓ).bind fun e e' he => (build_fewer v vars Γ Γ' h.2.2.1 hΓ).bind fun w w' hw =>
      (buildPairs_fewer xs vars Γ Γ' h.2.2.2.2 hΓ).bind fun es es' hes => ?_
    rw [h.2.1] at he
    rw [h.2.2.2.1] at hw
    refine .pure ⟨?_, .cons he.rt hes.keys, .cons hw.rt hes.vals, fun hc => ?_⟩
    · simp only [Expr.VaguePairs]
      exact ⟨e', w', es', he.vague, hw.vague, hes.vague, rfl⟩
    · simp only [Raw.closedPairs, Bool.and_eq_true] at hc
      rw [he.same hc.1.1, hw.same hc.1.2, hes.same hc.2]
end

end

/-! ### Rules -/

theorem related_refl (Γ : List Assignment) : Related [] Γ Γ := by
  unfold Related
  induction Γ with
  | nil => exact .nil
  | cons a Γ ih => exact .cons ⟨rfl, rfl, .refl _ _⟩ ih

/-- **C79.** Declaring types only adds refusals.  If a type resolver answers for every name either what the declared
one answers or UNDEFINED, then an (even) rule that is accepted with the declared types is accepted with it, and evaluating
the rule with the declared types does the same as evaluating it with fewer, or raises one of the exceptions of the types. -/
theorem types_only_refuse (codec : LitCodec) (env : Env) (t' : String → Except Err DataType)
    (ht : ∀ n, t' n = .ok .undefined ∨ t' n = env.typeResolver n) (dct : DecCtx) (text : String) (p p' : Proc)
    (raw : Raw) (c : Option String) (hp : (parseText codec p.line text).out = .ok (raw, c)) (heven : raw.Even [])
    (e : Expr) (h : p.rule codec env dct text = (.ok e, p')) :
    ∃ e' p'', p.rule codec (env.alt env.resolver t' env.defaultValue) dct text = (.ok e', p'') ∧
      ∀ (thing : Value) (q : Proc),
        q.evaluate env e thing = q.evaluate (env.alt env.resolver t' env.defaultValue) e' thing ∨
        ∃ err, (q.evaluate env e thing).1 = .error err ∧ err.ofTypes := by
  have hb := congrArg Prod.fst h
  simp only [Proc.rule, parseRule, hp, construct] at hb
  obtain ⟨e', h1, h2, -, -⟩ := (build_fewer ht dct raw [] p.st.scopes p.st.scopes heven (related_refl _)).run p.st p.st
    rfl rfl e hb
  refine ⟨e', (p.rule codec (env.alt env.resolver t' env.defaultValue) dct text).2, ?_, fun thing q => ?_⟩
  · refine Prod.ext ?_ rfl
    simp only [Proc.rule, parseRule, hp, construct]
    exact h1
  · rcases (eval_checked env t' env.decCtx thing e e' h2.vague).run q.st.reset with h3 | ⟨err, h3, h4⟩
    · left
      simp only [Proc.evaluate, ruleEval]
      rw [h3]
      rfl
    · exact .inr ⟨err, h3, h4⟩

/-- **C79.** What a rule returns does not depend on the declared types: what it returns with them, it returns with fewer. -/
theorem types_never_change_values (codec : LitCodec) (env : Env) (t' : String → Except Err DataType)
    (ht : ∀ n, t' n = .ok .undefined ∨ t' n = env.typeResolver n) (dct : DecCtx) (text : String) (p p' : Proc)
    (raw : Raw) (c : Option String) (hp : (parseText codec p.line text).out = .ok (raw, c)) (heven : raw.Even [])
    (e : Expr) (h : p.rule codec env dct text = (.ok e, p')) :
    ∃ e' p'', p.rule codec (env.alt env.resolver t' env.defaultValue) dct text = (.ok e', p'') ∧
      ∀ (thing : Value) (q : Proc) (v : Value), (q.evaluate env e thing).1 = .ok v →
        (q.evaluate (env.alt env.resolver t' env.defaultValue) e' thing).1 = .ok v := by
  obtain ⟨e', p'', h1, h2⟩ := types_only_refuse codec env t' ht dct text p p' raw c hp heven e h
  refine ⟨e', p'', h1, fun thing q v hv => ?_⟩
  rcases h2 thing q with h3 | ⟨err, h3, -⟩
  · rw [← h3, hv]
  · rw [h3] at hv; cases hv

/-- **C79.** A rule that is refused with fewer types is refused with the declared ones. -/
theorem fewer_types_refuse_less (codec : LitCodec) (env : Env) (t' : String → Except Err DataType)
    (ht : ∀ n, t' n = .ok .undefined ∨ t' n = env.typeResolver n) (dct : DecCtx) (text : String) (p p' : Proc)
    (raw : Raw) (c : Option String) (hp : (parseText codec p.line text).out = .ok (raw, c)) (heven : raw.Even [])
    (err : Err) (h : p.rule codec (env.alt env.resolver t' env.defaultValue) dct text = (.error err, p')) :
    ∃ err', (p.rule codec env dct text).1 = .error err' := by
  rcases hr : p.rule codec env dct text with ⟨_ | e, p2⟩
  · exact ⟨_, rfl⟩
  · obtain ⟨e', p'', h1, -⟩ := types_only_refuse codec env t' ht dct text p p2 raw c hp heven e hr
    rw [h] at h1
    cases h1

/-! ### Examples, and why the rules are even -/

/-- `Rule(text, context).evaluate(thing)` in a new process -/
def runText (codec : LitCodec) (env : Env) (text : List Char) (thing : Value) : Except Err Value :=
  match Proc.new.rule codec env env.decCtx (String.ofList text) with
  | (.ok e, p) => (p.evaluate env e thing).1
  | (.error e, _) => .error e

theorem runText_means {codec : LitCodec} {env : Env} {t : List Char} {raw : Raw} (h : Means codec t raw) (thing : Value) :
    runText codec env t thing = runRaw env raw thing := by
  simp only [runText, runRaw, Proc.rule, parseRule, Proc.new, h 1, Proc.evaluate]
  rcases construct env env.decCtx raw St.init with ⟨_ | e, s⟩ <;> rfl

/-- `x` is a FLOAT, `y` a STRING, `m` a MAPPING with STRING keys -/
def someTypes : String → Except Err DataType := fun n =>
  if n = "x" then .ok .float else if n = "y" then .ok .string
  else if n = "m" then .ok (.mapping .string .undefined true) else .ok .undefined

/-- a context with these types -/
def knownEnv : Env := sampleEnv.alt sampleEnv.resolver someTypes none

/-- The hypotheses are met: `(x) + (1)` in the context with types, and without. -/
example (codec : LitCodec) : ∃ raw e p',
    (parseText codec 1 (String.ofList (par ['x'] ++ ' ' :: (spelling .ADD ++ ' ' :: par ['1'])))).out = .ok (raw, none) ∧
    raw.Even [] ∧
    Proc.new.rule codec knownEnv .default (String.ofList (par ['x'] ++ ' ' :: (spelling .ADD ++ ' ' :: par ['1']))) = (.ok e, p') ∧
    (∀ n, noTypes n = .ok .undefined ∨ noTypes n = knownEnv.typeResolver n) ∧
    (Proc.new.evaluate knownEnv e (dictOf [("x", .int 1)])).1 = .ok (.dec (.fin false 2 0)) ∧
    (Proc.new.evaluate knownEnv e (dictOf [("x", .str "a")])).1 = .error (.eng (.symbolType "x")) := by
  have h : Means codec (par ['x'] ++ ' ' :: (spelling .ADD ++ ' ' :: par ['1'])) _ :=
    means_bin (means_sym x_word) (means_number one_number) .ADD (by decide)
  refine ⟨_, _, _, h 1, ?_, Prod.ext ((rule_of_means h).trans rfl) rfl, fun n => .inl rfl, by decide +kernel, by decide +kernel⟩
  exact ⟨by show (0 : Nat) ≤ 1; decide, trivial, trivial⟩

/-- Rules with literals, comprehensions, attributes, calls and ternaries are even:
`[v + 1 for v in [x]].length > 1 ? $sum([x, y]) : x.to_ary[0]`. -/
example : Raw.Even [] (.tern (.bin (.cmp .gt) (.getAttr (.comp (.bin .add (.sym "v" false) (.floatLit "1")) "v"
      (.array [.sym "x" false]) (.lit (.bool true))) "length" false) (.floatLit "1"))
    (.call (.sym "sum" true) [.array [.sym "x" false, .sym "y" false]])
    (.getItem (.getAttr (.sym "x" false) "to_ary" false) (.floatLit "0") false)) := by
  simp [Raw.Even, Raw.EvenList, Raw.EvenArgs, Raw.depth, Raw.closedList, Raw.closed, attrDepth]

/-- a part of an (uneven) rule -/
def listOf (t : List Char) : List Char := '[' :: (commas [t] ++ [']'])

theorem means_one {codec : LitCodec} {t : List Char} {r : Raw} (h : Means codec t r) : Means codec (listOf t) (.array [r]) :=
  means_array (.cons h .nil)

theorem means_each_one {codec : LitCodec} {a b x : List Char} {ra rb : Raw} (ha : Means codec a ra)
    (hb : Means codec b rb) (hx : IsWord x) :
    Means codec ('[' :: (a ++ (" for ".toList ++ (x ++ (" in ".toList ++ (listOf b ++ [']']))))))
      (.comp ra (String.ofList x) (.array [rb]) (.lit (.bool true))) := means_comp ha (means_one hb) hx

/-- Without the condition it fails: `([x]) < ([1])` is accepted with `x` a FLOAT, and refused when nothing is known of `x`. -/
theorem uneven_comparison (codec : LitCodec) :
    ∃ v, runText codec knownEnv (par (listOf ['x']) ++ ' ' :: (spelling .LT ++ ' ' :: par (listOf ['1'])))
        (dictOf [("x", .int 1)]) = .ok v ∧
      runText codec sampleEnv (par (listOf ['x']) ++ ' ' :: (spelling .LT ++ ' ' :: par (listOf ['1'])))
        (dictOf [("x", .int 1)]) = .error .mismatch := by
  have h : Means codec (par (listOf ['x']) ++ ' ' :: (spelling .LT ++ ' ' :: par (listOf ['1']))) _ :=
    means_bin (means_one (means_sym x_word)) (means_one (means_number one_number)) .LT (by decide)
  refine ⟨.bool false, ?_, ?_⟩
  · rw [runText_means h]; decide +kernel
  · rw [runText_means h]; decide +kernel

/-- Without the condition it fails: `((z) ? ({x}) : ({y})) + (1)` is accepted with `x` a
FLOAT and `y` a STRING, and refused when nothing is known of them. -/
theorem uneven_branches (codec : LitCodec) :
    let t := par (par ['z'] ++ " ? ".toList ++ par ('{' :: (commas [['x']] ++ ['}'])) ++ " : ".toList ++
      par ('{' :: (commas [['y']] ++ ['}']))) ++ ' ' :: (spelling .ADD ++ ' ' :: par ['1'])
    (∃ e, (Proc.new.rule codec knownEnv .default (String.ofList t)).1 = .ok e) ∧
      (Proc.new.rule codec sampleEnv .default (String.ofList t)).1 = .error .mismatch := by
  intro t
  have h : Means codec t _ := means_bin (means_tern (means_sym (n := ['z']) ⟨by decide, by decide⟩)
    (means_set (.cons (means_sym x_word) .nil) (by simp)) (means_set (.cons (means_sym (n := ['y']) ⟨by decide, by decide⟩) .nil) (by simp)))
    (means_number one_number) .ADD (by decide)
  exact ⟨⟨_, (rule_of_means h).trans rfl⟩, (rule_of_means h).trans rfl⟩

/-- Without the condition it fails: `(([[x], [y]])[1]) + (1)` is accepted with `x` a
FLOAT and `y` a STRING, and refused when nothing is known of them. -/
theorem uneven_members (codec : LitCodec) :
    let t := par (par ('[' :: (commas [listOf ['x'], listOf ['y']] ++ [']'])) ++ ("[".toList ++ (['1'] ++ [']']))) ++
      ' ' :: (spelling .ADD ++ ' ' :: par ['1'])
    (∃ e, (Proc.new.rule codec knownEnv .default (String.ofList t)).1 = .ok e) ∧
      (Proc.new.rule codec sampleEnv .default (String.ofList t)).1 = .error .mismatch := by
  intro t
  have h : Means codec t _ := means_bin (means_item (means_array (.cons (means_one (means_sym x_word))
    (.cons (means_one (means_sym (n := ['y']) ⟨by decide, by decide⟩)) .nil))) (means_number one_number) false)
    (means_number one_number) .ADD (by decide)
  exact ⟨⟨_, (rule_of_means h).trans rfl⟩, (rule_of_means h).trans rfl⟩

/-- Without the condition it fails: `(m)&[true]` returns null with `m` a MAPPING with STRING keys, without looking for `m`;
it raises SymbolResolutionError when nothing is known of `m`. -/
theorem uneven_safe_item (codec : LitCodec) :
    runText codec knownEnv (par ['m'] ++ ("&[".toList ++ ("true".toList ++ [']']))) (dictOf []) = .ok .none ∧
    runText codec sampleEnv (par ['m'] ++ ("&[".toList ++ ("true".toList ++ [']']))) (dictOf []) =
      .error (.eng (.symbolResolution "m")) := by
  have h : Means codec (par ['m'] ++ ("&[".toList ++ ("true".toList ++ [']']))) _ :=
    means_item (means_sym (n := ['m']) ⟨by decide, by decide⟩) (means_value_words codec).1 true
  exact ⟨(runText_means h _).trans (by decide +kernel), (runText_means h _).trans (by decide +kernel)⟩

/-- Without the condition it fails: the variable `v` of
`[v for v in [[[x] for a in [1]] for c in [1]]]` has a value with `x` a FLOAT, and raises SymbolTypeError when nothing is known
of `x`. -/
theorem uneven_variable (codec : LitCodec) :
    let a := '[' :: (listOf ['x'] ++ (" for ".toList ++ (['a'] ++ (" in ".toList ++ (listOf ['1'] ++ [']'])))))
    let b := '[' :: (a ++ (" for ".toList ++ (['c'] ++ (" in ".toList ++ (listOf ['1'] ++ [']'])))))
    let t := '[' :: (['v'] ++ (" for ".toList ++ (['v'] ++ (" in ".toList ++ (b ++ [']'])))))
    (∃ v, runText codec knownEnv t (dictOf [("x", .int 1)]) = .ok v) ∧
    runText codec sampleEnv t (dictOf [("x", .int 1)]) = .error (.eng (.symbolType "v")) := by
  intro a b t
  have h : Means codec t _ := means_comp (means_sym (n := ['v']) ⟨by decide, by decide⟩)
    (means_each_one (means_each_one (means_one (means_sym x_word)) (means_number one_number) (x := ['a']) ⟨by decide, by decide⟩)
      (means_number one_number) (x := ['c']) ⟨by decide, by decide⟩) (x := ['v']) ⟨by decide, by decide⟩
  refine ⟨⟨.tuple [.tuple [.tuple [.dec (.fin false 1 0)]]], (runText_means h _).trans (by decide +kernel)⟩,
    (runText_means h _).trans (by decide +kernel)⟩

end RE
