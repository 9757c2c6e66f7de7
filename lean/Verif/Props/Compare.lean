import Verif.Props.DecVal
import Verif.Props.Eval

/-!
# C06, C07: the laws of `==`, `!=` and the ordering operators
-/

namespace RE

set_option linter.unusedSimpArgs false

/-! ## The result of an operator on two values -/

/-- Specification: what `a op b` evaluates to (or raises), for operands that are already values. -/
def binResult (env : Env) (dc : DecCtx) (op : BinOp) (a b : Value) : Except Err Value :=
  (eval env dc .none (.bin op (.lit a .undefined) (.lit b .undefined)) St.init).1

/-- the operators that evaluate both operands whatever their values are (all but `and`, `or`) and
have no effect on the storage (all but the regex operators) -/
def BinOp.strict : BinOp → Bool
  | .and | .or | .fuzzy .. => false
  | _ => true

/-- The result of an operator depends on its operand expressions only through their values: the laws
about `binResult` below are laws about arbitrary operand expressions. -/
theorem eval_bin_strict (env : Env) (dc : DecCtx) (thing : Value) (op : BinOp) (hop : op.strict = true)
    (l r : Expr) (s s1 s2 : St) (a b : Value) (hl : eval env dc thing l s = (.ok a, s1))
    (hr : eval env dc thing r s1 = (.ok b, s2)) :
    (eval env dc thing (.bin op l r) s).1 = binResult env dc op a b := by
  unfold binResult
  simp only [eval]
  cases op <;> simp only [BinOp.strict, Bool.false_eq_true] at hop <;>
    simp only [evalBin, M.bind_apply, hl, hr, M.pure_apply, M.lift_apply]
  case arith o =>
    rcases assertNumeric a with e | _ <;> simp only [hr] <;>
      rcases assertNumeric b with e | _ <;> simp only
  case bit o =>
    rcases fromValue a with e | t <;> simp only
    by_cases ht : DataType.eq t .float = true
    · simp only [ht, if_true, M.bind_apply, M.lift_apply]
      rcases assertNatural a with e | _ <;> simp [hr]
    · simp only [ht, if_false]
      cases a <;> simp [M.bind_apply, hr]
  case shift o =>
    rcases fromValue a with e | t <;> simp only
    by_cases ht : DataType.eq t .float = true
    · simp only [ht, if_true, M.bind_apply, M.lift_apply]
      rcases assertNatural a with e | _ <;> simp [hr]
    · simp only [ht, if_false]
      cases a <;> simp [M.bind_apply, hr]
  case cmp o =>
    rcases opCmpValues env.utcoffset a o b with e | x <;> rfl

theorem binResult_eq (env : Env) (dc : DecCtx) (a b : Value) :
    binResult env dc .eq a b = .ok (.bool (opEq env.utcoffset a b)) := rfl

theorem binResult_ne (env : Env) (dc : DecCtx) (a b : Value) :
    binResult env dc .ne a b = .ok (.bool (opNe env.utcoffset a b)) := rfl

theorem binResult_cmp (env : Env) (dc : DecCtx) (op : CmpOp) (a b : Value) :
    binResult env dc (.cmp op) a b = (opCmpValues env.utcoffset a op b).map Value.bool := by
  unfold binResult
  simp only [eval, evalBin, M.bind_apply, M.pure_apply, M.lift_apply]
  rcases opCmpValues env.utcoffset a op b with e | x <;> rfl

/-! ## Specification: well-formed values -/

/-- Specification: time zone offsets are consistent.  Within one zone, of two wall clock times whose
offset does not depend on `fold` (that are in no daylight saving gap or fold) the later one is the later
one in UTC. -/
def TzOk (off : TzDb) : Prop :=
  ∀ tz a b, (off tz a).foldDependent = false → (off tz b).foldDependent = false → a < b →
    utcOf off a tz < utcOf off b tz

mutual
/-- Specification: what Python guarantees of any `set` and `dict` object, at every level: members of
sets and keys of mappings are hashable and pairwise unequal; and ranges consist of ints. -/
def Value.WF (off : TzDb) : Value → Prop
  | .seq k xs => Value.AllWF off xs ∧ (k = .range → ∀ x ∈ xs, ∃ i, x = Value.int i)
  | .set xs =>
    Value.AllWF off xs ∧ (∀ x ∈ xs, x.hashable = true) ∧
      xs.Pairwise (fun a b => pyEq off a b = false)
  | .map _ kvs =>
    Value.PairsWF off kvs ∧ (∀ p ∈ kvs, p.1.hashable = true) ∧
      kvs.Pairwise (fun p q => pyEq off p.1 q.1 = false)
  | _ => True
def Value.AllWF (off : TzDb) : List Value → Prop
  | [] => True
  | x :: xs => x.WF off ∧ Value.AllWF off xs
def Value.PairsWF (off : TzDb) : List (Value × Value) → Prop
  | [] => True
  | (k, v) :: rest => k.WF off ∧ v.WF off ∧ Value.PairsWF off rest
end

mutual
/-- Specification: the value contains no NaN and no function bound to an object (`x.starts_with`,
which is a new function each time it is looked up). -/
def Value.NoNaN : Value → Prop
  | .float f => f.exact ≠ .nan
  | .dec d => d ≠ .nan
  | .seq _ xs => Value.AllNoNaN xs
  | .set xs => Value.AllNoNaN xs
  | .map _ kvs => Value.PairsNoNaN kvs
  | .method .. => False
  | _ => True
def Value.AllNoNaN : List Value → Prop
  | [] => True
  | x :: xs => x.NoNaN ∧ Value.AllNoNaN xs
def Value.PairsNoNaN : List (Value × Value) → Prop
  | [] => True
  | (k, v) :: rest => k.NoNaN ∧ v.NoNaN ∧ Value.PairsNoNaN rest
end

mutual
/-- Specification: every mapping in the value is an `OrderedDict` (as in all values made by the
engine). -/
def Value.NoDict : Value → Prop
  | .seq _ xs => Value.AllNoDict xs
  | .set xs => Value.AllNoDict xs
  | .map k kvs => k = .ordered ∧ Value.PairsNoDict kvs
  | _ => True
def Value.AllNoDict : List Value → Prop
  | [] => True
  | x :: xs => x.NoDict ∧ Value.AllNoDict xs
def Value.PairsNoDict : List (Value × Value) → Prop
  | [] => True
  | (k, v) :: rest => k.NoDict ∧ v.NoDict ∧ Value.PairsNoDict rest
end

theorem allWF_iff {off : TzDb} {xs : List Value} : Value.AllWF off xs ↔ ∀ x ∈ xs, x.WF off := by
  induction xs with
  | nil => simp [Value.AllWF]
  | cons a t ih => simp [Value.AllWF, ih]

theorem pairsWF_iff {off : TzDb} {kvs : List (Value × Value)} :
    Value.PairsWF off kvs ↔ ∀ p ∈ kvs, p.1.WF off ∧ p.2.WF off := by
  induction kvs with
  | nil => simp [Value.PairsWF]
  | cons a t ih => obtain ⟨k, v⟩ := a; simp [Value.PairsWF, ih, and_assoc]

theorem allNoDict_iff {xs : List Value} : Value.AllNoDict xs ↔ ∀ x ∈ xs, x.NoDict := by
  induction xs with
  | nil => simp [Value.AllNoDict]
  | cons a t ih => simp [Value.AllNoDict, ih]

theorem pairsNoDict_iff {kvs : List (Value × Value)} :
    Value.PairsNoDict kvs ↔ ∀ p ∈ kvs, p.1.NoDict ∧ p.2.NoDict := by
  induction kvs with
  | nil => simp [Value.PairsNoDict]
  | cons a t ih => obtain ⟨k, v⟩ := a; simp [Value.PairsNoDict, ih, and_assoc]

theorem allHashable_iff {xs : List Value} :
    Value.allHashable xs = true ↔ ∀ x ∈ xs, x.hashable = true := by
  induction xs with
  | nil => simp [Value.allHashable]
  | cons a t ih => simp [Value.allHashable, ih]

/-! ## `pyEq` of numbers and containers -/

theorem pyEq_number {off : TzDb} {a b : Value} {d : Dec} (h : a.asNumber = some d) :
    pyEq off a b = match b.asNumber with | some e => decEq d e | none => false := by
  cases a <;> simp [Value.asNumber] at h <;> subst h <;> simp only [pyEq] <;>
    (split <;> simp_all)

theorem pyEq_number_right {off : TzDb} {a b : Value} {d : Dec} (h : b.asNumber = some d) :
    pyEq off a b = match a.asNumber with | some e => decEq e d | none => false := by
  cases ha : a.asNumber with
  | some e => rw [pyEq_number ha, h]
  | none =>
    cases b <;> simp [Value.asNumber] at h <;> cases a <;> simp [Value.asNumber] at ha <;> simp [pyEq]

theorem pySubset_iff {off : TzDb} {xs ys : List Value} :
    pySubset off xs ys = true ↔ ∀ x ∈ xs, ∃ y ∈ ys, pyEq off x y = true := by
  induction xs with
  | nil => simp [pySubset]
  | cons a t ih => simp [pySubset, ih, List.any_eq_true]

theorem pySubmap_iff {off : TzDb} {xs ys : List (Value × Value)} :
    pySubmap off xs ys = true ↔
      ∀ p ∈ xs, ∃ q ∈ ys, pyEq off p.1 q.1 = true ∧ pyEq off p.2 q.2 = true := by
  induction xs with
  | nil => simp [pySubmap]
  | cons a t ih => obtain ⟨k, v⟩ := a; simp [pySubmap, ih, List.any_eq_true]

theorem pyEq_seq_left {off : TzDb} {k : SeqKind} {xs : List Value} {b : Value} :
    pyEq off (.seq k xs) b = true ↔ ∃ ys, b = .seq k ys ∧ pyEqSeq off xs ys = true := by
  cases b <;> simp [pyEq]
  exact fun _ => eq_comm

theorem pyEq_set_left {off : TzDb} {xs : List Value} {b : Value} :
    pyEq off (.set xs) b = true ↔
      ∃ ys, b = .set ys ∧ xs.length = ys.length ∧ pySubset off xs ys = true := by
  cases b <;> simp [pyEq]

theorem pyEq_map_left {off : TzDb} {k : MapKind} {xs : List (Value × Value)} {b : Value} :
    pyEq off (.map k xs) b = true ↔
      ∃ l ys, b = .map l ys ∧ xs.length = ys.length ∧ pySubmap off xs ys = true ∧
        (k = .ordered → l = .ordered → pyEqKeys off xs ys = true) := by
  cases b <;> simp [pyEq, and_assoc]
  intro _ _
  tauto

theorem pyEq_datetime_left {off : TzDb} {x : Int} {s : Option Nat} {b : Value} :
    pyEq off (.datetime x s) b = true ↔ ∃ y t, b = .datetime y t ∧ datetimeEq off x s y t = true := by
  cases b <;> simp [pyEq]

/-- values other than numbers, datetimes and containers are equal only to themselves -/
theorem pyEq_atom_left {off : TzDb} {a b : Value} (h : match a with
    | .none | .str _ | .bytes _ | .date _ | .timedelta _ | .builtinFn _ | .userFn _ | .obj _
    | .undef => True
    | _ => False) : pyEq off a b = true ↔ b = a := by
  cases a <;> simp at h <;> cases b <;> simp [pyEq] <;> exact eq_comm

theorem datetimeEq_refl (off : TzDb) (a : Int) (s : Option Nat) : datetimeEq off a s a s = true := by
  cases s <;> simp [datetimeEq]

/-- `datetimeEq` as equality of a key, within a consistent time zone database -/
theorem datetimeEq_symm (off : TzDb) (a : Int) (s : Option Nat) (b : Int) (t : Option Nat) :
    datetimeEq off a s b t = datetimeEq off b t a s := by
  have hx : ∀ x y : Int, (x == y) = (y == x) := fun x y => BEq.comm
  cases s with
  | none => cases t <;> simp only [datetimeEq]; exact hx a b
  | some s =>
    cases t with
    | none => simp [datetimeEq]
    | some t =>
      simp only [datetimeEq]
      by_cases h : s = t
      · subst h; simp only [if_true]; exact hx a b
      · simp only [h, if_false, Ne.symm h]
        rw [hx (utcOf off a s), Bool.and_comm (!_) (!_)]

theorem tzOk_inj {off : TzDb} (h : TzOk off) {tz : Nat} {a b : Int}
    (ha : (off tz a).foldDependent = false) (hb : (off tz b).foldDependent = false)
    (he : utcOf off a tz = utcOf off b tz) : a = b := by
  rcases lt_trichotomy a b with hl | hl | hl
  · exact absurd he (h tz a b ha hb hl).ne
  · exact hl
  · exact absurd he.symm (h tz b a hb ha hl).ne

theorem datetimeEq_trans {off : TzDb} (htz : TzOk off) {a b c : Int} {s t u : Option Nat}
    (h1 : datetimeEq off a s b t = true) (h2 : datetimeEq off b t c u = true) :
    datetimeEq off a s c u = true := by
  cases s with
  | none => cases t <;> cases u <;> simp_all [datetimeEq]
  | some s =>
    cases t with
    | none => simp [datetimeEq] at h1
    | some t =>
      cases u with
      | none => simp [datetimeEq] at h2
      | some u =>
        simp only [datetimeEq] at *
        by_cases hst : s = t
        · subst hst
          simp only [if_true, beq_iff_eq] at h1
          subst h1
          exact h2
        · by_cases htu : t = u
          · subst htu
            simp only [if_true, beq_iff_eq] at h2
            subst h2
            exact h1
          · simp only [hst, htu, if_false, Bool.and_eq_true, Bool.not_eq_true', beq_iff_eq] at h1 h2
            by_cases hsu : s = u
            · subst hsu
              simp only [if_true, beq_iff_eq]
              exact tzOk_inj htz h1.1.1 h2.1.2 (h1.2.trans h2.2)
            · simp only [hsu, if_false, Bool.and_eq_true, Bool.not_eq_true', beq_iff_eq]
              exact ⟨⟨h1.1.1, h2.1.2⟩, h1.2.trans h2.2⟩

/-! ## Transitivity -/

theorem num_trans {off : TzDb} {a b c : Value} {d : Dec} (ha : a.asNumber = some d)
    (h1 : pyEq off a b = true) (h2 : pyEq off b c = true) : pyEq off a c = true := by
  rw [pyEq_number ha] at h1 ⊢
  cases hb : b.asNumber with
  | none => simp [hb] at h1
  | some e =>
    rw [pyEq_number hb] at h2
    cases hc : c.asNumber with
    | none => simp [hc] at h2
    | some f =>
      simp only [hb, hc] at h1 h2 ⊢
      exact decEq_trans h1 h2

theorem atom_trans {off : TzDb} {a b c : Value} (h : match a with
    | .none | .str _ | .bytes _ | .date _ | .timedelta _ | .builtinFn _ | .userFn _ | .obj _
    | .undef => True
    | _ => False) (h1 : pyEq off a b = true) (h2 : pyEq off b c = true) : pyEq off a c = true := by
  rw [(pyEq_atom_left h).mp h1] at h2
  exact h2

mutual
theorem pyEq_trans {off : TzDb} (htz : TzOk off) :
    ∀ a b c : Value, b.NoDict → pyEq off a b = true → pyEq off b c = true → pyEq off a c = true
  | .none, b, c, _, h1, h2 => atom_trans trivial h1 h2
  | .bool x, b, c, _, h1, h2 => num_trans (a := .bool x) rfl h1 h2
  | .int x, b, c, _, h1, h2 => num_trans (a := .int x) rfl h1 h2
  | .float x, b, c, _, h1, h2 => num_trans (a := .float x) rfl h1 h2
  | .dec x, b, c, _, h1, h2 => num_trans (a := .dec x) rfl h1 h2
  | .str x, b, c, _, h1, h2 => atom_trans trivial h1 h2
  | .bytes x, b, c, _, h1, h2 => atom_trans trivial h1 h2
  | .date x, b, c, _, h1, h2 => atom_trans trivial h1 h2
  | .datetime x s, b, c, _, h1, h2 => by
    obtain ⟨y, t, rfl, g1⟩ := pyEq_datetime_left.mp h1
    obtain ⟨z, u, rfl, g2⟩ := pyEq_datetime_left.mp h2
    exact pyEq_datetime_left.mpr ⟨z, u, rfl, datetimeEq_trans htz g1 g2⟩
  | .timedelta x, b, c, _, h1, h2 => atom_trans trivial h1 h2
  | .seq k xs, b, c, hb, h1, h2 => by
    obtain ⟨ys, rfl, g1⟩ := pyEq_seq_left.mp h1
    obtain ⟨zs, rfl, g2⟩ := pyEq_seq_left.mp h2
    exact pyEq_seq_left.mpr ⟨zs, rfl, pyEqSeq_trans htz xs ys zs hb g1 g2⟩
  | .set xs, b, c, hb, h1, h2 => by
    obtain ⟨ys, rfl, hl, g1⟩ := pyEq_set_left.mp h1
    obtain ⟨zs, rfl, hl', g2⟩ := pyEq_set_left.mp h2
    refine pyEq_set_left.mpr ⟨zs, rfl, hl.trans hl', ?_⟩
    rw [pySubset_iff] at *
    intro x hx
    obtain ⟨y, hy, hxy⟩ := g1 x hx
    obtain ⟨z, hz, hyz⟩ := g2 y hy
    exact ⟨z, hz, pyEqMem_trans htz xs x hx y z (allNoDict_iff.mp hb y hy) hxy hyz⟩
  | .map k xs, b, c, hb, h1, h2 => by
    obtain ⟨l, ys, rfl, hl, g1, h1'⟩ := pyEq_map_left.mp h1
    obtain ⟨m, zs, rfl, hl', g2, h2'⟩ := pyEq_map_left.mp h2
    obtain ⟨rfl, hb⟩ := hb
    refine pyEq_map_left.mpr ⟨m, zs, rfl, hl.trans hl', ?_, fun hk hm =>
      pyEqKeys_trans htz xs ys zs hb (h1' hk rfl) (h2' rfl hm)⟩
    rw [pySubmap_iff]
    intro p hp
    obtain ⟨q, hq, hk, hv⟩ := pySubmap_iff.mp g1 p hp
    obtain ⟨r, hr, hk', hv'⟩ := pySubmap_iff.mp g2 q hq
    have hd := pairsNoDict_iff.mp hb q hq
    have := pyEqPair_trans htz xs p hp
    exact ⟨r, hr, this.1 _ _ hd.1 hk hk', this.2 _ _ hd.2 hv hv'⟩
  | .builtinFn x, b, c, _, h1, h2 => atom_trans trivial h1 h2
  | .userFn x, b, c, _, h1, h2 => atom_trans trivial h1 h2
  | .method m s, b, c, _, h1, _ => by cases b <;> simp [pyEq] at h1
  | .obj x, b, c, _, h1, h2 => atom_trans trivial h1 h2
  | .undef, b, c, _, h1, h2 => atom_trans trivial h1 h2
theorem pyEqSeq_trans {off : TzDb} (htz : TzOk off) :
    ∀ as bs cs : List Value, Value.AllNoDict bs → pyEqSeq off as bs = true → pyEqSeq off bs cs = true →
      pyEqSeq off as cs = true
  | [], bs, cs => by cases bs <;> cases cs <;> simp [pyEqSeq]
  | a :: as, bs, cs => by
    cases bs <;> cases cs <;> simp [pyEqSeq, Value.AllNoDict]
    rename_i b bs c cs
    intro hb hbs h1 h2 h3 h4
    exact ⟨pyEq_trans htz a b c hb h1 h3, pyEqSeq_trans htz as bs cs hbs h2 h4⟩
theorem pyEqMem_trans {off : TzDb} (htz : TzOk off) :
    ∀ as : List Value, ∀ a ∈ as, ∀ b c, b.NoDict → pyEq off a b = true → pyEq off b c = true →
      pyEq off a c = true
  | [] => by simp
  | a :: as => by
    intro x hx
    rcases List.mem_cons.mp hx with h' | hx
    · rw [h']; exact pyEq_trans htz a
    · exact pyEqMem_trans htz as x hx
theorem pyEqPair_trans {off : TzDb} (htz : TzOk off) :
    ∀ as : List (Value × Value), ∀ p ∈ as,
      (∀ b c, b.NoDict → pyEq off p.1 b = true → pyEq off b c = true → pyEq off p.1 c = true) ∧
      (∀ b c, b.NoDict → pyEq off p.2 b = true → pyEq off b c = true → pyEq off p.2 c = true)
  | [] => by simp
  | (k, v) :: as => by
    intro x hx
    rcases List.mem_cons.mp hx with h' | hx
    · rw [h']; exact ⟨pyEq_trans htz k, pyEq_trans htz v⟩
    · exact pyEqPair_trans htz as x hx
theorem pyEqKeys_trans {off : TzDb} (htz : TzOk off) :
    ∀ as bs cs : List (Value × Value), Value.PairsNoDict bs → pyEqKeys off as bs = true →
      pyEqKeys off bs cs = true → pyEqKeys off as cs = true
  | [], bs, cs => by cases bs <;> cases cs <;> simp [pyEqKeys]
  | (k, v) :: as, bs, cs => by
    rcases bs with _ | ⟨⟨l, w⟩, bs⟩ <;> rcases cs with _ | ⟨c, cs⟩ <;>
      simp [pyEqKeys, Value.PairsNoDict]
    intro hb hb' hbs h1 h2 h3 h4
    exact ⟨pyEq_trans htz k l c.1 hb h1 h3, pyEqKeys_trans htz as bs cs hbs h2 h4⟩
end

/-! ## Symmetry -/

/-- a relation that maps distinct elements of `xs` to distinct elements of `ys` reaches all of `ys`,
if `ys` is not longer -/
theorem pigeonhole {α β : Type} {R : α → β → Prop} : ∀ (xs : List α) (ys : List β),
    (∀ x ∈ xs, ∃ y ∈ ys, R x y) →
    xs.Pairwise (fun x x' => ∀ y ∈ ys, R x y → ¬ R x' y) →
    ys.length ≤ xs.length → ∀ y ∈ ys, ∃ x ∈ xs, R x y
  | [], ys, _, _, hl => by
    have : ys = [] := by cases ys <;> simp_all
    simp [this]
  | x :: xs, ys, htot, hinj, hl => by
    obtain ⟨y0, hy0, hr⟩ := htot x (List.mem_cons_self)
    obtain ⟨l1, l2, rfl⟩ := List.append_of_mem hy0
    have hx := (List.pairwise_cons.mp hinj).1
    have ih := pigeonhole (R := R) xs (l1 ++ l2)
      (by
        intro x' hx'
        obtain ⟨y, hy, hxy⟩ := htot x' (List.mem_cons_of_mem _ hx')
        refine ⟨y, ?_, hxy⟩
        simp only [List.mem_append, List.mem_cons] at hy ⊢
        rcases hy with hy | rfl | hy
        · exact .inl hy
        · exact absurd hxy (hx x' hx' y hy0 hr)
        · exact .inr hy)
      ((List.pairwise_cons.mp hinj).2.imp (fun h y hy => h y (by
        simp only [List.mem_append, List.mem_cons] at hy ⊢; tauto)))
      (by simp at hl ⊢; omega)
    intro y hy
    simp only [List.mem_append, List.mem_cons] at hy
    by_cases hyy : y ∈ l1 ++ l2
    · obtain ⟨x', hx', h⟩ := ih y hyy
      exact ⟨x', List.mem_cons_of_mem _ hx', h⟩
    · have : y = y0 := by
        simp only [List.mem_append] at hyy
        tauto
      subst this
      exact ⟨x, List.mem_cons_self, hr⟩

mutual
/-- what equals a hashable value contains no mapping -/
theorem noDict_of_hashable {off : TzDb} : ∀ a b : Value, a.WF off → a.hashable = true →
    pyEq off a b = true → b.NoDict
  | .none, b, _, _, h | .str _, b, _, _, h | .bytes _, b, _, _, h | .date _, b, _, _, h
  | .timedelta _, b, _, _, h | .builtinFn _, b, _, _, h | .userFn _, b, _, _, h | .obj _, b, _, _, h
  | .undef, b, _, _, h | .bool _, b, _, _, h | .int _, b, _, _, h | .float _, b, _, _, h
  | .dec _, b, _, _, h | .method .., b, _, _, h | .datetime .., b, _, _, h => by
    cases b <;> first | trivial | simp [pyEq, Value.asNumber] at h
  | .set _, _, _, hh, _ => by simp [Value.hashable] at hh
  | .map .., _, _, hh, _ => by simp [Value.hashable] at hh
  | .seq k xs, b, hw, hh, h => by
    obtain ⟨ys, rfl, g⟩ := pyEq_seq_left.mp h
    have : Value.allHashable xs = true := by
      cases k with
      | tuple => simpa [Value.hashable] using hh
      | list => simp [Value.hashable] at hh
      | range =>
        rw [allHashable_iff]
        intro x hx
        obtain ⟨i, rfl⟩ := hw.2 rfl x hx
        rfl
    exact allNoDict_of_hashable xs ys hw.1 this g
theorem allNoDict_of_hashable {off : TzDb} : ∀ as bs : List Value, Value.AllWF off as →
    Value.allHashable as = true → pyEqSeq off as bs = true → Value.AllNoDict bs
  | [], bs, _, _, h => by cases bs <;> simp_all [pyEqSeq, Value.AllNoDict]
  | a :: as, bs, hw, hh, h => by
    rcases bs with _ | ⟨b, bs⟩
    · trivial
    · simp only [pyEqSeq, Bool.and_eq_true, Value.allHashable] at h hh
      exact ⟨noDict_of_hashable a b hw.1 hh.1 h.1, allNoDict_of_hashable as bs hw.2 hh.2 h.2⟩
end

theorem num_symm {off : TzDb} {a b : Value} {d : Dec} (ha : a.asNumber = some d)
    (h : pyEq off a b = true) : pyEq off b a = true := by
  rw [pyEq_number ha] at h
  rw [pyEq_number_right ha]
  cases hb : b.asNumber with
  | none => simp [hb] at h
  | some e => simp only [hb] at h ⊢; rw [decEq_symm]; exact h

theorem atom_symm {off : TzDb} {a b : Value} (h : match a with
    | .none | .str _ | .bytes _ | .date _ | .timedelta _ | .builtinFn _ | .userFn _ | .obj _
    | .undef => True
    | _ => False) (h1 : pyEq off a b = true) : pyEq off b a = true := by
  have := (pyEq_atom_left h).mp h1
  subst this
  exact h1

mutual
theorem pyEq_symm {off : TzDb} (htz : TzOk off) :
    ∀ a b : Value, a.WF off → pyEq off a b = true → pyEq off b a = true
  | .none, b, _, h1 => atom_symm trivial h1
  | .bool x, b, _, h1 => num_symm (a := .bool x) rfl h1
  | .int x, b, _, h1 => num_symm (a := .int x) rfl h1
  | .float x, b, _, h1 => num_symm (a := .float x) rfl h1
  | .dec x, b, _, h1 => num_symm (a := .dec x) rfl h1
  | .str x, b, _, h1 => atom_symm trivial h1
  | .bytes x, b, _, h1 => atom_symm trivial h1
  | .date x, b, _, h1 => atom_symm trivial h1
  | .datetime x s, b, _, h1 => by
    obtain ⟨y, t, rfl, g1⟩ := pyEq_datetime_left.mp h1
    rw [datetimeEq_symm] at g1
    exact pyEq_datetime_left.mpr ⟨x, s, rfl, g1⟩
  | .timedelta x, b, _, h1 => atom_symm trivial h1
  | .seq k xs, b, hw, h1 => by
    obtain ⟨ys, rfl, g1⟩ := pyEq_seq_left.mp h1
    exact pyEq_seq_left.mpr ⟨xs, rfl, pyEqSeq_symm htz xs ys hw.1 g1⟩
  | .set xs, b, hw, h1 => by
    obtain ⟨ys, rfl, hl, g1⟩ := pyEq_set_left.mp h1
    refine pyEq_set_left.mpr ⟨xs, rfl, hl.symm, ?_⟩
    have hs := pyEqMem_symm htz xs hw.1
    rw [pySubset_iff] at *
    have := pigeonhole (R := fun x y => pyEq off x y = true) xs ys g1
      (List.Pairwise.imp_of_mem (fun {x x'} hx hx' hne y _ hxy hxy' => by
        have hd := noDict_of_hashable x y (allWF_iff.mp hw.1 x hx) (hw.2.1 x hx) hxy
        have := pyEq_trans htz x y x' hd hxy (hs x' hx' y hxy')
        simp [this] at hne) hw.2.2) hl.ge
    intro y hy
    obtain ⟨x, hx, hxy⟩ := this y hy
    exact ⟨x, hx, hs x hx y hxy⟩
  | .map k xs, b, hw, h1 => by
    obtain ⟨l, ys, rfl, hl, g1, g2⟩ := pyEq_map_left.mp h1
    refine pyEq_map_left.mpr ⟨k, xs, rfl, hl.symm, ?_, fun hl' hk =>
      pyEqKeys_symm htz xs ys hw.1 (g2 hk hl')⟩
    have hs := pyEqPair_symm htz xs hw.1
    rw [pySubmap_iff] at *
    have := pigeonhole (R := fun p q => pyEq off p.1 q.1 = true ∧ pyEq off p.2 q.2 = true) xs ys g1
      (List.Pairwise.imp_of_mem (fun {x x'} hx hx' hne y _ hxy hxy' => by
        have hd := noDict_of_hashable x.1 y.1 (pairsWF_iff.mp hw.1 x hx).1 (hw.2.1 x hx) hxy.1
        have := pyEq_trans htz x.1 y.1 x'.1 hd hxy.1 ((hs x' hx').1 y.1 hxy'.1)
        simp [this] at hne) hw.2.2) hl.ge
    intro y hy
    obtain ⟨x, hx, hxy⟩ := this y hy
    exact ⟨x, hx, (hs x hx).1 _ hxy.1, (hs x hx).2 _ hxy.2⟩
  | .builtinFn x, b, _, h1 => atom_symm trivial h1
  | .userFn x, b, _, h1 => atom_symm trivial h1
  | .method m s, b, _, h1 => by cases b <;> simp [pyEq] at h1
  | .obj x, b, _, h1 => atom_symm trivial h1
  | .undef, b, _, h1 => atom_symm trivial h1
theorem pyEqSeq_symm {off : TzDb} (htz : TzOk off) :
    ∀ as bs : List Value, Value.AllWF off as → pyEqSeq off as bs = true → pyEqSeq off bs as = true
  | [], bs, _, h => by cases bs <;> simp_all [pyEqSeq]
  | a :: as, bs, hw, h => by
    rcases bs with _ | ⟨b, bs⟩
    · simp [pyEqSeq] at h
    · simp only [pyEqSeq, Bool.and_eq_true] at h ⊢
      exact ⟨pyEq_symm htz a b hw.1 h.1, pyEqSeq_symm htz as bs hw.2 h.2⟩
theorem pyEqMem_symm {off : TzDb} (htz : TzOk off) :
    ∀ as : List Value, Value.AllWF off as → ∀ a ∈ as, ∀ b, pyEq off a b = true → pyEq off b a = true
  | [], _ => by simp
  | a :: as, hw => by
    intro x hx
    rcases List.mem_cons.mp hx with h' | hx
    · rw [h']; exact fun b => pyEq_symm htz a b hw.1
    · exact pyEqMem_symm htz as hw.2 x hx
theorem pyEqPair_symm {off : TzDb} (htz : TzOk off) :
    ∀ as : List (Value × Value), Value.PairsWF off as → ∀ p ∈ as,
      (∀ b, pyEq off p.1 b = true → pyEq off b p.1 = true) ∧
      (∀ b, pyEq off p.2 b = true → pyEq off b p.2 = true)
  | [], _ => by simp
  | (k, v) :: as, hw => by
    intro x hx
    rcases List.mem_cons.mp hx with h' | hx
    · rw [h']; exact ⟨fun b => pyEq_symm htz k b hw.1, fun b => pyEq_symm htz v b hw.2.1⟩
    · exact pyEqPair_symm htz as hw.2.2 x hx
theorem pyEqKeys_symm {off : TzDb} (htz : TzOk off) :
    ∀ as bs : List (Value × Value), Value.PairsWF off as → pyEqKeys off as bs = true →
      pyEqKeys off bs as = true
  | [], bs, _, h => by cases bs <;> simp_all [pyEqKeys]
  | (k, v) :: as, bs, hw, h => by
    rcases bs with _ | ⟨⟨l, w⟩, bs⟩
    · simp [pyEqKeys] at h
    · simp only [pyEqKeys, Bool.and_eq_true] at h ⊢
      exact ⟨pyEq_symm htz k l hw.1 h.1, pyEqKeys_symm htz as bs hw.2.2 h.2⟩
end

/-! ## Reflexivity -/

mutual
theorem pyEq_refl {off : TzDb} : ∀ a : Value, a.NoNaN → pyEq off a a = true
  | .none, _ => by simp [pyEq]
  | .bool x, _ => by rw [pyEq_number (d := .ofInt (if x then 1 else 0)) rfl]; exact decEq_refl (by simp [Dec.ofInt])
  | .int x, _ => by rw [pyEq_number (d := .ofInt x) rfl]; exact decEq_refl (by simp [Dec.ofInt])
  | .float x, h => by rw [pyEq_number (d := x.exact) rfl]; exact decEq_refl h
  | .dec x, h => by rw [pyEq_number (d := x) rfl]; exact decEq_refl h
  | .str x, _ => by simp [pyEq]
  | .bytes x, _ => by simp [pyEq]
  | .date x, _ => by simp [pyEq]
  | .datetime x s, _ => pyEq_datetime_left.mpr ⟨x, s, rfl, datetimeEq_refl off x s⟩
  | .timedelta x, _ => by simp [pyEq]
  | .seq k xs, h => pyEq_seq_left.mpr ⟨xs, rfl, pyEqSeq_refl xs h⟩
  | .set xs, h => pyEq_set_left.mpr ⟨xs, rfl, rfl, pySubset_iff.mpr fun x hx =>
      ⟨x, hx, pyEqMem_refl xs h x hx⟩⟩
  | .map k xs, h => pyEq_map_left.mpr ⟨k, xs, rfl, rfl, pySubmap_iff.mpr fun p hp =>
      ⟨p, hp, pyEqPair_refl xs h p hp⟩, fun _ _ => pyEqKeys_refl xs h⟩
  | .builtinFn x, _ => by simp [pyEq]
  | .userFn x, _ => by simp [pyEq]
  | .method m s, h => h.elim
  | .obj x, _ => by simp [pyEq]
  | .undef, _ => by simp [pyEq]
theorem pyEqSeq_refl {off : TzDb} : ∀ xs : List Value, Value.AllNoNaN xs → pyEqSeq off xs xs = true
  | [], _ => by simp [pyEqSeq]
  | a :: as, h => by simp [pyEqSeq, pyEq_refl a h.1, pyEqSeq_refl as h.2]
theorem pyEqMem_refl {off : TzDb} : ∀ xs : List Value, Value.AllNoNaN xs → ∀ x ∈ xs, pyEq off x x = true
  | [], _ => by simp
  | a :: as, h => by
    intro x hx
    rcases List.mem_cons.mp hx with h' | hx
    · rw [h']; exact pyEq_refl a h.1
    · exact pyEqMem_refl as h.2 x hx
theorem pyEqPair_refl {off : TzDb} : ∀ xs : List (Value × Value), Value.PairsNoNaN xs → ∀ p ∈ xs,
    pyEq off p.1 p.1 = true ∧ pyEq off p.2 p.2 = true
  | [], _ => by simp
  | (k, v) :: as, h => by
    intro x hx
    rcases List.mem_cons.mp hx with h' | hx
    · rw [h']; exact ⟨pyEq_refl k h.1, pyEq_refl v h.2.1⟩
    · exact pyEqPair_refl as h.2.2 x hx
theorem pyEqKeys_refl {off : TzDb} : ∀ xs : List (Value × Value), Value.PairsNoNaN xs →
    pyEqKeys off xs xs = true
  | [], _ => by simp [pyEqKeys]
  | (k, v) :: as, h => by simp [pyEqKeys, pyEq_refl k h.1, pyEqKeys_refl as h.2.2]
end

/-! ## C06 -/

/-- **C06.** `a == b` and `b == a` have the same result. -/
theorem eq_symmetric (env : Env) (dc : DecCtx) (htz : TzOk env.utcoffset) (a b : Value)
    (ha : a.WF env.utcoffset) (hb : b.WF env.utcoffset) :
    binResult env dc .eq a b = binResult env dc .eq b a := by
  rw [binResult_eq, binResult_eq]
  congr 2
  unfold opEq
  by_cases ht : a.pyType = b.pyType
  · simp only [ht, if_true]
    rw [Bool.eq_iff_iff]
    exact ⟨pyEq_symm htz a b ha, pyEq_symm htz b a hb⟩
  · simp [ht, Ne.symm ht]

/-- **C06.** `a == a` is true for every value without NaN. -/
theorem eq_reflexive (env : Env) (dc : DecCtx) (a : Value) (ha : a.NoNaN) :
    binResult env dc .eq a a = .ok (.bool true) := by
  rw [binResult_eq]
  simp [opEq, pyEq_refl a ha]

/-- **C06** (not in the English property): `==` is transitive, for values without plain dictionaries.
(Two `OrderedDict`s that are equal to one `dict` can differ in the order of their items.) -/
theorem eq_transitive (env : Env) (dc : DecCtx) (htz : TzOk env.utcoffset) (a b c : Value)
    (hb : b.NoDict) (h1 : binResult env dc .eq a b = .ok (.bool true))
    (h2 : binResult env dc .eq b c = .ok (.bool true)) :
    binResult env dc .eq a c = .ok (.bool true) := by
  rw [binResult_eq] at *
  simp only [opEq, Except.ok.injEq, Value.bool.injEq] at *
  by_cases e1 : a.pyType = b.pyType
  swap
  · simp [e1] at h1
  by_cases e2 : b.pyType = c.pyType
  swap
  · simp [e2] at h2
  rw [if_pos e1] at h1
  rw [if_pos e2] at h2
  simp [e1, e2, pyEq_trans htz a b c hb h1 h2]

/-- NaN is not equal to itself. -/
example : binResult sampleEnv .default .eq (.dec .nan) (.dec .nan) = .ok (.bool false) := by
  decide +kernel

theorem sampleEnv_tzOk : TzOk sampleEnv.utcoffset := by
  intro tz a b _ _ h
  simp [utcOf, sampleEnv]
  omega

/-- a mapping with an array key and a set value -/
def sampleMapping : Value :=
  .map .ordered [(.tuple [.str "a", .dec (.ofInt 1)], .set [.dec (.ofInt 1), .str "b"]),
    (.none, .datetime 5 (some 3))]

/-- the hypotheses are met -/
example : sampleMapping.WF sampleEnv.utcoffset ∧ sampleMapping.NoNaN ∧ sampleMapping.NoDict := by
  have h : ∀ d, pyEq sampleEnv.utcoffset (.dec d) (.str "b") = false := fun d => by
    simp [pyEq, Value.asNumber]
  have h' : pyEq sampleEnv.utcoffset (.tuple [.str "a", .dec (.ofInt 1)]) .none = false := by
    simp [pyEq]
  refine ⟨?_, ?_, ?_⟩
  · simp [sampleMapping, Value.WF, Value.AllWF, Value.PairsWF, Value.hashable, Value.allHashable, h, h']
  · simp [sampleMapping, Value.NoNaN, Value.AllNoNaN, Value.PairsNoNaN, Dec.ofInt]
  · simp [sampleMapping, Value.NoDict, Value.AllNoDict, Value.PairsNoDict]

end RE
