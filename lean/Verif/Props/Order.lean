import Verif.Props.Compare
import Mathlib.Order.Compare

/-!
# C07: the ordering operators
-/

namespace RE

set_option linter.unusedSimpArgs false

/-! ## Specification -/

/-- Specification: the ordered types. -/
inductive OrdType where
  | null | boolean | float | string | naive | aware | timedelta
  | array (member : OrdType)
  deriving Repr

/-- Specification: values of an ordered type.  Floats other than NaN; datetimes either all naive or all
aware and (where daylight saving time changes) neither in a gap nor in a fold; arrays all of whose
members have the same ordered type. -/
def OrdVal (off : TzDb) : OrdType → Value → Prop
  | .null, v => v = .none
  | .boolean, v => ∃ b, v = .bool b
  | .float, v => ∃ d, v = .dec d ∧ d ≠ .nan
  | .string, v => ∃ s, v = .str s
  | .naive, v => ∃ us, v = .datetime us none
  | .aware, v => ∃ us tz, v = .datetime us (some tz) ∧ (off tz us).foldDependent = false
  | .timedelta, v => ∃ us, v = .timedelta us
  | .array t, v => ∃ xs, v = .tuple xs ∧ ∀ x ∈ xs, OrdVal off t x

/-! ## The three-way comparison -/

/-- wall clock times within a zone, UTC times between zones -/
def datetimeOrd (off : TzDb) (x : Int) (s : Option Nat) (y : Int) (t : Option Nat) : Option Ordering :=
  match s, t with
  | none, none => some (compare x y)
  | some s, some t =>
    if s = t then some (compare x y)
    else if (off s x).foldDependent || (off t y).foldDependent then none
    else some (compare (utcOf off x s) (utcOf off y t))
  | _, _ => none

mutual
/-- the three-way comparison behind the operators; `none` for values that are not comparable -/
def ordOf (off : TzDb) : Value → Value → Option Ordering
  | .none, .none => some .eq
  | .bool x, .bool y => some (compare x.toNat y.toNat)
  | .dec x, .dec y => decCmp x y
  | .str x, .str y => some (lexCmp (fun c d => compare c.toNat d.toNat) x.toList y.toList)
  | .timedelta x, .timedelta y => some (compare x y)
  | .datetime x s, .datetime y t => datetimeOrd off x s y t
  | .seq k xs, .seq l ys => if k = .tuple ∧ l = .tuple then ordList off xs ys else none
  | _, _ => none
/-- lexicographic -/
def ordList (off : TzDb) : List Value → List Value → Option Ordering
  | [], [] => some .eq
  | [], _ :: _ => some .lt
  | _ :: _, [] => some .gt
  | x :: xs, y :: ys =>
    match ordOf off x y with
    | some .eq => ordList off xs ys
    | o => o
end

theorem ordNone {o : Ordering} (h : (none : Option Ordering) = some o) : False := by cases h

theorem ordList_iff {off : TzDb} {x y : Value} {xs ys : List Value} {o : Ordering} :
    ordList off (x :: xs) (y :: ys) = some o ↔
      (ordOf off x y = some o ∧ o ≠ .eq) ∨ (ordOf off x y = some .eq ∧ ordList off xs ys = some o) := by
  simp only [ordList]
  split
  · rename_i h; simp [h]; rintro rfl h; exact absurd rfl h
  · rename_i h
    constructor
    · intro ho; left; exact ⟨ho, by rintro rfl; exact h ho⟩
    · rintro (⟨ho, -⟩ | ⟨ho, -⟩)
      · exact ho
      · exact absurd ho h

theorem compare_swap_int (x y : Int) : compare y x = (compare x y).swap := by
  rcases lt_trichotomy x y with h | h | h
  · rw [compare_lt_iff_lt.mpr h, compare_gt_iff_gt.mpr h]; rfl
  · rw [compare_eq_iff_eq.mpr h, compare_eq_iff_eq.mpr h.symm]; rfl
  · rw [compare_gt_iff_gt.mpr h, compare_lt_iff_lt.mpr h]; rfl

theorem compare_swap_nat (x y : Nat) : compare y x = (compare x y).swap := by
  rcases lt_trichotomy x y with h | h | h
  · rw [compare_lt_iff_lt.mpr h, compare_gt_iff_gt.mpr h]; rfl
  · rw [compare_eq_iff_eq.mpr h, compare_eq_iff_eq.mpr h.symm]; rfl
  · rw [compare_gt_iff_gt.mpr h, compare_lt_iff_lt.mpr h]; rfl

theorem lexCmp_swap {α : Type} {cmp : α → α → Ordering} (h : ∀ a b, cmp b a = (cmp a b).swap) :
    ∀ xs ys : List α, lexCmp cmp ys xs = (lexCmp cmp xs ys).swap
  | [], [] => rfl
  | [], _ :: _ => rfl
  | _ :: _, [] => rfl
  | x :: xs, y :: ys => by
    simp only [lexCmp]
    rw [h x y]
    cases cmp x y <;> simp [lexCmp_swap h xs ys]

mutual
theorem ordOf_swap {off : TzDb} : ∀ a b : Value, ordOf off b a = (ordOf off a b).map Ordering.swap
  | .none, b => by cases b <;> simp [ordOf]
  | .bool x, b => by
    cases b <;> simp only [ordOf, Option.map_some, Option.map_none]
    rw [compare_swap_nat]
  | .dec x, b => by
    cases b <;> simp only [ordOf, Option.map_some, Option.map_none]
    exact decCmp_swap _ _
  | .str x, b => by
    cases b <;> simp only [ordOf, Option.map_some, Option.map_none]
    rw [lexCmp_swap (fun a b => compare_swap_nat _ _)]
  | .timedelta x, b => by
    cases b <;> simp only [ordOf, Option.map_some, Option.map_none]
    rw [compare_swap_int]
  | .datetime x s, b => by
    cases b <;> simp only [ordOf, Option.map_some, Option.map_none]
    rename_i y t
    cases s <;> cases t <;> simp only [datetimeOrd, Option.map_some, Option.map_none]
    · rw [compare_swap_int]
    · rename_i s t
      by_cases h : s = t
      · subst h; simp only [if_true, Option.map_some]; rw [compare_swap_int]
      · rw [if_neg h, if_neg (Ne.symm h), Bool.or_comm]
        split
        · rfl
        · rw [compare_swap_int]; rfl
  | .seq k xs, b => by
    cases b <;> simp only [ordOf, Option.map_some, Option.map_none]
    rename_i l ys
    by_cases h : k = .tuple ∧ l = .tuple
    · rw [if_pos h, if_pos h.symm]; exact ordList_swap xs ys
    · rw [if_neg h, if_neg (fun g => h g.symm)]; rfl
  | .int _, b | .float _, b | .bytes _, b | .date _, b | .set _, b | .map .., b | .builtinFn _, b
  | .userFn _, b | .method .., b | .obj _, b | .undef, b => by cases b <;> simp [ordOf]
theorem ordList_swap {off : TzDb} : ∀ xs ys : List Value,
    ordList off ys xs = (ordList off xs ys).map Ordering.swap
  | [], [] => by simp [ordList]
  | [], _ :: _ => by simp [ordList]
  | _ :: _, [] => by simp [ordList]
  | x :: xs, y :: ys => by
    simp only [ordList]
    rw [ordOf_swap x y]
    rcases ordOf off x y with _ | o
    · rfl
    · cases o <;> simp [ordList_swap xs ys]
end

/-! ## The operators compute it -/

theorem bool_toNat_ofInt (x : Bool) : (if x then 1 else 0 : Int) = (x.toNat : Int) := by cases x <;> rfl

theorem lexCmp_eq {α : Type} {cmp : α → α → Ordering} (h : ∀ a b, cmp a b = .eq ↔ a = b) :
    ∀ xs ys : List α, lexCmp cmp xs ys = .eq ↔ xs = ys
  | [], [] => by simp [lexCmp]
  | [], _ :: _ => by simp [lexCmp]
  | _ :: _, [] => by simp [lexCmp]
  | x :: xs, y :: ys => by
    simp only [lexCmp, List.cons.injEq, ← h x y, ← lexCmp_eq h xs ys]
    cases cmp x y <;> simp

theorem charCmp_eq (a b : Char) : compare a.toNat b.toNat = .eq ↔ a = b := by
  rw [compare_eq_iff_eq]
  constructor
  · intro h
    exact Char.ext (UInt32.toNat.inj h)
  · rintro rfl; rfl

mutual
/-- equality is the outcome `eq` -/
theorem pyEq_of_ordOf {off : TzDb} : ∀ (a b : Value) (o : Ordering), ordOf off a b = some o →
    pyEq off a b = (o == .eq) ∧ a.pyType = b.pyType
  | .none, b, o => by
    cases b <;> simp [ordOf, pyEq]
    rintro rfl; simp
  | .bool x, b, o => by
    cases b <;> simp [ordOf]
    rename_i y
    rintro rfl
    constructor
    · rw [pyEq_number (d := .ofInt (if x then 1 else 0)) rfl]
      cases x <;> cases y <;> rfl
    · rfl
  | .dec x, b, o => by
    cases b <;> simp [ordOf]
    rename_i y
    intro h
    refine ⟨?_, rfl⟩
    rw [pyEq_number (d := x) rfl]
    simp only [Value.asNumber, decEq, h]
    cases o <;> rfl
  | .str x, b, o => by
    cases b <;> simp [ordOf]
    rename_i y
    rintro rfl
    refine ⟨?_, rfl⟩
    rw [Bool.eq_iff_iff]
    simp only [pyEq, beq_iff_eq]
    rw [lexCmp_eq charCmp_eq]
    exact ⟨fun h => by rw [h], fun h => String.toList_inj.mp h⟩
  | .timedelta x, b, o => by
    cases b <;> simp [ordOf]
    rename_i y
    rintro rfl
    refine ⟨?_, rfl⟩
    rw [Bool.eq_iff_iff]
    simp only [pyEq, beq_iff_eq]
    rw [compare_eq_iff_eq]
  | .datetime x s, b, o => by
    cases b <;> simp only [ordOf] <;> intro h <;> try exact (ordNone h).elim
    rename_i y t
    cases s <;> cases t <;> simp only [datetimeOrd, pyEq, datetimeEq] at h ⊢ <;>
      try exact (ordNone h).elim
    · cases h
      refine ⟨?_, rfl⟩
      rw [Bool.eq_iff_iff]
      simp only [beq_iff_eq]
      rw [compare_eq_iff_eq]
    · rename_i s t
      refine ⟨?_, rfl⟩
      by_cases hst : s = t
      · simp only [hst, if_true, Option.some.injEq] at h ⊢
        subst h
        rw [Bool.eq_iff_iff]
        simp only [beq_iff_eq]
        rw [compare_eq_iff_eq]
      · simp only [hst, if_false] at h ⊢
        by_cases hf : ((off s x).foldDependent || (off t y).foldDependent) = true
        · simp [hf] at h
        · simp only [hf, if_false, Bool.false_eq_true, Option.some.injEq] at h
          simp only [Bool.not_eq_true, Bool.or_eq_false_iff] at hf
          subst h
          rw [Bool.eq_iff_iff]
          simp only [hf.1, hf.2, Bool.not_false, Bool.true_and, beq_iff_eq]
          rw [compare_eq_iff_eq]
  | .seq k xs, b, o => by
    cases b <;> simp only [ordOf] <;> intro h <;> try exact (ordNone h).elim
    rename_i l ys
    by_cases hk : k = .tuple ∧ l = .tuple
    · rw [if_pos hk] at h
      obtain ⟨rfl, rfl⟩ := hk
      simp only [pyEq, Value.pyType, and_true, beq_self_eq_true, Bool.true_and]
      exact pyEqSeq_of_ordList xs ys o h
    · rw [if_neg hk] at h; exact (ordNone h).elim
  | .int _, b, o | .float _, b, o | .bytes _, b, o | .date _, b, o | .set _, b, o | .map .., b, o
  | .builtinFn _, b, o | .userFn _, b, o | .method .., b, o | .obj _, b, o | .undef, b, o => by
    cases b <;> simp [ordOf]
theorem pyEqSeq_of_ordList {off : TzDb} : ∀ (xs ys : List Value) (o : Ordering),
    ordList off xs ys = some o → pyEqSeq off xs ys = (o == .eq)
  | [], [], o => by simp [ordList, pyEqSeq]; rintro rfl; rfl
  | [], _ :: _, o => by simp [ordList, pyEqSeq]; rintro rfl; simp
  | _ :: _, [], o => by simp [ordList, pyEqSeq]; rintro rfl; simp
  | x :: xs, y :: ys, o => by
    rw [ordList_iff]
    simp only [pyEqSeq]
    rintro (⟨h, h'⟩ | ⟨h, h'⟩)
    · rw [(pyEq_of_ordOf x y o h).1]
      cases o <;> simp_all
    · rw [(pyEq_of_ordOf x y .eq h).1, pyEqSeq_of_ordList xs ys o h']
      simp
end

theorem pyCmp_of_ordOf {off : TzDb} {a b : Value} {o : Ordering} (h : ordOf off a b = some o)
    (hn : a ≠ .none) (hs : ∀ k xs, a ≠ .seq k xs) (op : CmpOp) :
    pyCmp off op a b = .ok (op.holds o) := by
  cases a <;> cases b <;> simp only [ordOf] at h <;> first | exact (ordNone h).elim | skip
  case none.none => exact absurd rfl hn
  case bool.bool => cases h; rfl
  case dec.dec => simp [pyCmp, decCmpOp, h]
  case str.str => cases h; rfl
  case timedelta.timedelta => cases h; rfl
  case seq.seq => exact absurd rfl (hs _ _)
  case datetime.datetime x s y t =>
    cases s <;> cases t <;> simp only [datetimeOrd] at h <;> first | exact (ordNone h).elim | skip
    · cases h; rfl
    · rename_i s t
      by_cases hst : s = t
      · simp only [hst, if_true, Option.some.injEq] at h
        subst h
        simp [pyCmp, hst]
      · simp only [hst, if_false] at h
        by_cases hf : ((off s x).foldDependent || (off t y).foldDependent) = true
        · simp [hf] at h
        · simp only [hf, if_false, Bool.false_eq_true, Option.some.injEq] at h
          simp only [Bool.not_eq_true, Bool.or_eq_false_iff] at hf
          subst h
          simp only [pyCmp, hst, if_false, datetimeEq, hf.1, hf.2, Bool.not_false, Bool.true_and]
          split
          · rename_i hop
            subst hop
            simp only [CmpOp.holds, Except.ok.injEq]
            rw [Bool.eq_iff_iff]
            simp [compare_eq_iff_eq]
          · rfl

theorem holds_ne (o : Ordering) : CmpOp.ne.holds o = !(o == .eq) := by cases o <;> rfl

mutual
theorem opCmpValues_of_ordOf {off : TzDb} : ∀ (a b : Value) (o : Ordering) (op : CmpOp),
    ordOf off a b = some o → opCmpValues off a op b = .ok (op.holds o)
  | .none, b, o, op => by
    cases b <;> simp [ordOf]
    rintro rfl
    cases op <;> simp [opCmpValues] <;> rfl
  | .seq k xs, b, o, op => by
    cases b <;> simp only [ordOf] <;> intro h <;> try exact (ordNone h).elim
    rename_i l ys
    by_cases hk : k = .tuple ∧ l = .tuple
    · rw [if_pos hk] at h
      obtain ⟨rfl, rfl⟩ := hk
      simp only [opCmpValues]
      exact opCmpArrays_of_ordList xs ys o op _ _ (Nat.add_comm _ _) h
    · rw [if_neg hk] at h; exact (ordNone h).elim
  | .bool _, b, o, op | .dec _, b, o, op | .str _, b, o, op | .timedelta _, b, o, op
  | .datetime .., b, o, op => fun h => by
    unfold opCmpValues
    simp only [(pyEq_of_ordOf _ _ _ h).2, if_true]
    exact pyCmp_of_ordOf h (by simp) (by simp) op
  | .int _, b, o, op | .float _, b, o, op | .bytes _, b, o, op | .date _, b, o, op | .set _, b, o, op
  | .map .., b, o, op
  | .builtinFn _, b, o, op | .userFn _, b, o, op | .method .., b, o, op | .obj _, b, o, op
  | .undef, b, o, op => by cases b <;> simp [ordOf]
theorem opCmpArrays_of_ordList {off : TzDb} : ∀ (xs ys : List Value) (o : Ordering) (op : CmpOp)
    (n m : Nat), n + ys.length = m + xs.length → ordList off xs ys = some o →
    opCmpArrays off xs op ys n m = .ok (op.holds o)
  | [], [], o, op, n, m, hl => by
    simp [ordList]
    rintro rfl
    have : n = m := by simpa using hl
    cases op <;> simp [opCmpArrays, this] <;> rfl
  | [], y :: ys, o, op, n, m, hl => by
    simp [ordList]
    rintro rfl
    have h : n < m := by simp at hl; omega
    have h' : compare (n : Int) (m : Int) = .lt := compare_lt_iff_lt.mpr (by exact_mod_cast h)
    simp [opCmpArrays, h.ne, pyCmp, h']
  | x :: xs, [], o, op, n, m, hl => by
    simp [ordList]
    rintro rfl
    have h : m < n := by simp at hl; omega
    have h' : compare (n : Int) (m : Int) = .gt := compare_gt_iff_gt.mpr (by exact_mod_cast h)
    simp [opCmpArrays, h.ne', pyCmp, h']
  | x :: xs, y :: ys, o, op, n, m, hl => by
    rw [ordList_iff]
    rintro (⟨h, h'⟩ | ⟨h, h'⟩)
    · simp only [opCmpArrays, opCmpValues_of_ordOf x y o .ne h, opCmpValues_of_ordOf x y o op h]
      cases o <;> simp_all [CmpOp.holds, bind, Except.bind]
    · simp only [opCmpArrays, opCmpValues_of_ordOf x y .eq .ne h]
      simp only [CmpOp.holds, bind, Except.bind]
      exact opCmpArrays_of_ordList xs ys o op n m (by simp at hl; omega) h'
end


/-! ## Totality and transitivity -/

theorem decCmp_total {x y : Dec} (hx : x ≠ .nan) (hy : y ≠ .nan) : ∃ o, decCmp x y = some o := by
  cases x <;> cases y <;> simp [decCmp] at *

/-- values of one ordered type are comparable -/
theorem ordOf_total {off : TzDb} : ∀ (t : OrdType) (a b : Value), OrdVal off t a → OrdVal off t b →
    ∃ o, ordOf off a b = some o
  | .null, a, b, ha, hb => by cases ha; cases hb; exact ⟨.eq, by simp [ordOf]⟩
  | .boolean, a, b, ⟨x, ha⟩, ⟨y, hb⟩ => by subst ha hb; (simp only [ordOf]; exact ⟨_, rfl⟩)
  | .float, a, b, ⟨x, ha, hx⟩, ⟨y, hb, hy⟩ => by
    subst ha hb
    simp only [ordOf]
    exact decCmp_total hx hy
  | .string, a, b, ⟨x, ha⟩, ⟨y, hb⟩ => by subst ha hb; (simp only [ordOf]; exact ⟨_, rfl⟩)
  | .naive, a, b, ⟨x, ha⟩, ⟨y, hb⟩ => by subst ha hb; (simp only [ordOf, datetimeOrd]; exact ⟨_, rfl⟩)
  | .aware, a, b, ⟨x, s, ha, hs⟩, ⟨y, t, hb, ht⟩ => by
    subst ha hb
    by_cases h : s = t
    · (simp only [ordOf, datetimeOrd, h, if_true]; exact ⟨_, rfl⟩)
    · (simp only [ordOf, datetimeOrd, h, if_false, hs, ht, Bool.or_self, Bool.false_eq_true]; exact ⟨_, rfl⟩)
  | .timedelta, a, b, ⟨x, ha⟩, ⟨y, hb⟩ => by subst ha hb; (simp only [ordOf]; exact ⟨_, rfl⟩)
  | .array t, a, b, ⟨xs, ha, hx⟩, ⟨ys, hb, hy⟩ => by
    subst ha hb
    simp only [ordOf, and_self, if_true]
    induction xs generalizing ys with
    | nil => cases ys <;> (simp only [ordList]; exact ⟨_, rfl⟩)
    | cons x xs ih =>
      rcases ys with _ | ⟨y, ys⟩
      · (simp only [ordList]; exact ⟨_, rfl⟩)
      · obtain ⟨o, ho⟩ := ordOf_total t x y (hx x List.mem_cons_self) (hy y List.mem_cons_self)
        simp only [ordList, ho]
        cases o
        · exact ⟨_, rfl⟩
        · exact ih (fun z hz => hx z (List.mem_cons_of_mem _ hz)) ys
            (fun z hz => hy z (List.mem_cons_of_mem _ hz))
        · exact ⟨_, rfl⟩

theorem compare_then_int {x y z : Int} (h1 : compare x y ≠ .gt) (h2 : compare y z ≠ .gt) :
    compare x z = (compare x y).then (compare y z) := by
  have h1 : x ≤ y := compare_le_iff_le.mp h1
  have h2 : y ≤ z := compare_le_iff_le.mp h2
  rcases h1.lt_or_eq with h | rfl
  · rw [compare_lt_iff_lt.mpr h, compare_lt_iff_lt.mpr (lt_of_lt_of_le h h2)]; rfl
  · rw [compare_eq_iff_eq.mpr rfl]; rfl

theorem compare_then_nat {x y z : Nat} (h1 : compare x y ≠ .gt) (h2 : compare y z ≠ .gt) :
    compare x z = (compare x y).then (compare y z) := by
  have h1 : x ≤ y := compare_le_iff_le.mp h1
  have h2 : y ≤ z := compare_le_iff_le.mp h2
  rcases h1.lt_or_eq with h | rfl
  · rw [compare_lt_iff_lt.mpr h, compare_lt_iff_lt.mpr (lt_of_lt_of_le h h2)]; rfl
  · rw [compare_eq_iff_eq.mpr rfl]; rfl

theorem lexCmp_then {α : Type} {cmp : α → α → Ordering}
    (h : ∀ a b c, cmp a b ≠ .gt → cmp b c ≠ .gt → cmp a c = (cmp a b).then (cmp b c)) :
    ∀ xs ys zs : List α, lexCmp cmp xs ys ≠ .gt → lexCmp cmp ys zs ≠ .gt →
      lexCmp cmp xs zs = (lexCmp cmp xs ys).then (lexCmp cmp ys zs)
  | [], ys, zs => by cases ys <;> cases zs <;> simp [lexCmp]
  | x :: xs, ys, zs => by
    rcases ys with _ | ⟨y, ys⟩
    · simp [lexCmp]
    rcases zs with _ | ⟨z, zs⟩
    · simp [lexCmp]
    simp only [lexCmp]
    have hh := h x y z
    have ih := lexCmp_then h xs ys zs
    cases h1 : cmp x y <;> cases h2 : cmp y z <;> simp_all
    intro hne
    cases h3 : lexCmp cmp xs ys <;> simp_all

/-- the outcome for `a`, `c` from those for `a`, `b` and `b`, `c` -/
theorem ordOf_then {off : TzDb} (htz : TzOk off) : ∀ (t : OrdType) (a b c : Value) (o1 o2 : Ordering),
    OrdVal off t a → OrdVal off t b → OrdVal off t c → ordOf off a b = some o1 → ordOf off b c = some o2 →
    o1 ≠ .gt → o2 ≠ .gt → ordOf off a c = some (o1.then o2)
  | .null, a, b, c, o1, o2, ha, hb, hc, h1, h2, _, _ => by
    cases ha; cases hb; cases hc
    simp [ordOf] at *
    subst h1 h2; rfl
  | .boolean, a, b, c, o1, o2, ⟨x, ha⟩, ⟨y, hb⟩, ⟨z, hc⟩, h1, h2, g1, g2 => by
    subst ha hb hc
    simp only [ordOf, Option.some.injEq] at *
    subst h1 h2
    exact compare_then_nat g1 g2
  | .float, a, b, c, o1, o2, ⟨x, ha, _⟩, ⟨y, hb, _⟩, ⟨z, hc, _⟩, h1, h2, g1, g2 => by
    subst ha hb hc
    simp only [ordOf] at *
    cases o1
    · cases o2
      · exact decCmp_trans_lt h1 h2
      · have h3 : decCmp z y = some .eq := by rw [decCmp_swap, h2]; rfl
        have := decCmp_eq_left (c := x) h3
        rw [decCmp_swap x z, decCmp_swap x y, h1] at this
        cases h4 : decCmp x z with
        | none => simp [h4] at this
        | some o => cases o <;> simp [h4] at this ⊢
      · exact absurd rfl g2
    · rw [decCmp_eq_left h1, h2]; rfl
    · exact absurd rfl g1
  | .string, a, b, c, o1, o2, ⟨x, ha⟩, ⟨y, hb⟩, ⟨z, hc⟩, h1, h2, g1, g2 => by
    subst ha hb hc
    simp only [ordOf, Option.some.injEq] at *
    subst h1 h2
    exact lexCmp_then (cmp := fun c d : Char => compare c.toNat d.toNat)
      (fun a b c => compare_then_nat) _ _ _ g1 g2
  | .naive, a, b, c, o1, o2, ⟨x, ha⟩, ⟨y, hb⟩, ⟨z, hc⟩, h1, h2, g1, g2 => by
    subst ha hb hc
    simp only [ordOf, datetimeOrd, Option.some.injEq] at *
    subst h1 h2
    exact compare_then_int g1 g2
  | .aware, a, b, c, o1, o2, ⟨x, s, ha, hs⟩, ⟨y, t, hb, ht⟩, ⟨z, u, hc, hu⟩, h1, h2, g1, g2 => by
    subst ha hb hc
    have key : ∀ (x : Int) (s : Nat) (y : Int) (t : Nat), (off s x).foldDependent = false →
        (off t y).foldDependent = false →
        datetimeOrd off x (some s) y (some t) = some (compare (utcOf off x s) (utcOf off y t)) := by
      intro x s y t hs ht
      by_cases h : s = t
      · subst h
        simp only [datetimeOrd, if_true, Option.some.injEq]
        rcases lt_trichotomy x y with g | g | g
        · rw [compare_lt_iff_lt.mpr g, compare_lt_iff_lt.mpr (htz s x y hs ht g)]
        · rw [compare_eq_iff_eq.mpr g, g, compare_eq_iff_eq.mpr rfl]
        · rw [compare_gt_iff_gt.mpr g, compare_gt_iff_gt.mpr (htz s y x ht hs g)]
      · simp [datetimeOrd, h, hs, ht]
    simp only [ordOf, key _ _ _ _ hs ht, key _ _ _ _ ht hu, key _ _ _ _ hs hu, Option.some.injEq] at *
    subst h1 h2
    exact compare_then_int g1 g2
  | .timedelta, a, b, c, o1, o2, ⟨x, ha⟩, ⟨y, hb⟩, ⟨z, hc⟩, h1, h2, g1, g2 => by
    subst ha hb hc
    simp only [ordOf, Option.some.injEq] at *
    subst h1 h2
    exact compare_then_int g1 g2
  | .array t, a, b, c, o1, o2, ⟨xs, ha, hx⟩, ⟨ys, hb, hy⟩, ⟨zs, hc, hz⟩, h1, h2, g1, g2 => by
    subst ha hb hc
    simp only [ordOf, and_self, if_true] at *
    induction xs generalizing ys zs with
    | nil =>
      cases ys <;> cases zs <;> simp only [ordList, Option.some.injEq] at * <;> subst h1
      · subst h2; rfl
      · subst h2; rfl
      · subst h2; exact absurd rfl g2
      · rfl
    | cons x xs ih =>
      rcases ys with _ | ⟨y, ys⟩
      · simp only [ordList, Option.some.injEq] at h1; exact absurd h1.symm g1
      rcases zs with _ | ⟨z, zs⟩
      · simp only [ordList, Option.some.injEq] at h2; exact absurd h2.symm g2
      have hxyz := fun p q => ordOf_then htz t x y z p q (hx x List.mem_cons_self)
        (hy y List.mem_cons_self) (hz z List.mem_cons_self)
      rw [ordList_iff] at h1 h2 ⊢
      rcases h1 with ⟨h1, e1⟩ | ⟨h1, h1'⟩ <;> rcases h2 with ⟨h2, e2⟩ | ⟨h2, h2'⟩
      · left
        refine ⟨hxyz _ _ h1 h2 g1 g2, ?_⟩
        cases o1 <;> cases o2 <;> simp_all
      · left
        have := hxyz _ _ h1 h2 g1 (by simp)
        cases o1 <;> simp_all
      · left
        have := hxyz _ _ h1 h2 (by simp) g2
        cases o1 <;> cases o2 <;> simp_all
      · right
        refine ⟨hxyz _ _ h1 h2 (by simp) (by simp), ?_⟩
        exact ih (fun w hw => hx w (List.mem_cons_of_mem _ hw)) ys
          (fun w hw => hy w (List.mem_cons_of_mem _ hw)) zs
          (fun w hw => hz w (List.mem_cons_of_mem _ hw)) h1' h2'


/-! ## C07 -/

/-- **C07.** For two values of the same ordered type all operators return, and their results are those
of one of the three outcomes less, equal, greater: exactly one of `a < b`, `a == b`, `a > b` holds,
`b > a` and `b < a` agree with `a < b` and `a > b`, and `<=`, `>=` are the negations. -/
theorem ordering_coherent (env : Env) (dc : DecCtx) (t : OrdType) (a b : Value)
    (ha : OrdVal env.utcoffset t a) (hb : OrdVal env.utcoffset t b) :
    ∃ lt eq gt : Bool,
      binResult env dc (.cmp .lt) a b = .ok (.bool lt) ∧
      binResult env dc .eq a b = .ok (.bool eq) ∧
      binResult env dc (.cmp .gt) a b = .ok (.bool gt) ∧
      ((lt, eq, gt) = (true, false, false) ∨ (lt, eq, gt) = (false, true, false) ∨
        (lt, eq, gt) = (false, false, true)) ∧
      binResult env dc (.cmp .gt) b a = .ok (.bool lt) ∧
      binResult env dc .eq b a = .ok (.bool eq) ∧
      binResult env dc (.cmp .lt) b a = .ok (.bool gt) ∧
      binResult env dc (.cmp .le) a b = .ok (.bool !gt) ∧
      binResult env dc (.cmp .ge) a b = .ok (.bool !lt) := by
  obtain ⟨o, ho⟩ := ordOf_total t a b ha hb
  have ho' : ordOf env.utcoffset b a = some o.swap := by rw [ordOf_swap a b, ho]; rfl
  have h1 := fun op => opCmpValues_of_ordOf a b o op ho
  have h2 := fun op => opCmpValues_of_ordOf b a o.swap op ho'
  obtain ⟨h3, h4⟩ := pyEq_of_ordOf a b o ho
  obtain ⟨h5, -⟩ := pyEq_of_ordOf b a o.swap ho'
  refine ⟨o == .lt, o == .eq, o == .gt, ?_⟩
  simp only [binResult_cmp, binResult_eq, h1, h2, opEq, h3, h4, h5, if_true, CmpOp.holds]
  cases o <;> simp [Except.map]

/-- **C07.** `a < b` iff `b > a`. -/
theorem lt_iff_gt (env : Env) (dc : DecCtx) (t : OrdType) (a b : Value)
    (ha : OrdVal env.utcoffset t a) (hb : OrdVal env.utcoffset t b) :
    binResult env dc (.cmp .lt) a b = binResult env dc (.cmp .gt) b a := by
  obtain ⟨_, _, _, h1, _, _, _, h2, _⟩ := ordering_coherent env dc t a b ha hb
  rw [h1, h2]

/-- **C07.** `a <= b` iff not `b < a`. -/
theorem le_iff_not_gt (env : Env) (dc : DecCtx) (t : OrdType) (a b : Value)
    (ha : OrdVal env.utcoffset t a) (hb : OrdVal env.utcoffset t b) :
    binResult env dc (.cmp .le) a b = .ok (.bool true) ↔
      binResult env dc (.cmp .lt) b a = .ok (.bool false) := by
  obtain ⟨x, y, z, -, -, -, -, -, -, h1, h2, -⟩ := ordering_coherent env dc t a b ha hb
  rw [h1, h2]
  simp

/-- **C07** (not in the English property): `<=` is transitive, and strictly so if one of the two steps
is. -/
theorem le_trans_lt (env : Env) (dc : DecCtx) (htz : TzOk env.utcoffset) (t : OrdType) (a b c : Value)
    (ha : OrdVal env.utcoffset t a) (hb : OrdVal env.utcoffset t b) (hc : OrdVal env.utcoffset t c)
    (h1 : binResult env dc (.cmp .le) a b = .ok (.bool true))
    (h2 : binResult env dc (.cmp .le) b c = .ok (.bool true)) :
    binResult env dc (.cmp .le) a c = .ok (.bool true) ∧
    (binResult env dc (.cmp .lt) a b = .ok (.bool true) ∨
      binResult env dc (.cmp .lt) b c = .ok (.bool true) →
      binResult env dc (.cmp .lt) a c = .ok (.bool true)) := by
  obtain ⟨o1, ho1⟩ := ordOf_total t a b ha hb
  obtain ⟨o2, ho2⟩ := ordOf_total t b c hb hc
  simp only [binResult_cmp, opCmpValues_of_ordOf a b o1 _ ho1, opCmpValues_of_ordOf b c o2 _ ho2,
    Except.map, Except.ok.injEq, Value.bool.injEq, CmpOp.holds] at h1 h2 ⊢
  have g1 : o1 ≠ .gt := by simpa using h1
  have g2 : o2 ≠ .gt := by simpa using h2
  have ho3 := ordOf_then htz t a b c o1 o2 ha hb hc ho1 ho2 g1 g2
  simp only [opCmpValues_of_ordOf a c _ _ ho3, Except.map, Except.ok.injEq, Value.bool.injEq, CmpOp.holds]
  cases o1 <;> cases o2 <;> simp_all

/-- the kind of data type of a Python type -/
def pyTypeKind : PyType → TypeKind
  | .none => .null
  | .bool => .boolean
  | .int | .float | .dec => .float
  | .str => .string
  | .bytes => .bytes
  | .date | .datetime => .datetime
  | .timedelta => .timedelta
  | .tuple | .list | .range => .array
  | .set => .set
  | .dict | .ordered => .mapping
  | .cFunction | .pyFunction | .partialFn | .user _ => .function
  | .obj _ | .undef => .undefined

theorem fromValue_kind (v : Value) (t : DataType) (h : fromValue v = .ok t) :
    t.kind = pyTypeKind v.pyType := by
  cases v <;> simp only [fromValue] at h <;> first | (cases h; rfl) | (cases h; done) | skip
  case seq k xs =>
    obtain ⟨ts, -, h⟩ := except_bind_ok.mp h
    cases h
    cases k <;> rfl
  case set xs =>
    obtain ⟨ts, -, h⟩ := except_bind_ok.mp h
    cases h
    rfl
  case map k kvs =>
    obtain ⟨ks, -, h⟩ := except_bind_ok.mp h
    obtain ⟨vs, -, h⟩ := except_bind_ok.mp h
    simp only [mkMappingType] at h
    split at h
    · cases h
    · cases h; cases k <;> rfl
  case builtinFn f =>
    cases h
    cases f <;> rfl

/-- **C07.** Operands whose values have different data types are not ordered: EvaluationError. -/
theorem ordering_mismatch (env : Env) (dc : DecCtx) (op : CmpOp) (a b : Value) (t u : DataType)
    (ha : fromValue a = .ok t) (hb : fromValue b = .ok u) (hk : t.kind ≠ u.kind) :
    binResult env dc (.cmp op) a b = .error (.eng .evaluation) := by
  have hne : a.pyType ≠ b.pyType := fun h =>
    hk ((fromValue_kind a t ha).trans ((congrArg pyTypeKind h).trans (fromValue_kind b u hb).symm))
  have : opCmpValues env.utcoffset a op b = .error .mismatch := by
    unfold opCmpValues
    split
    · exact absurd rfl hne
    · exact absurd rfl hne
    · rw [if_neg hne]
  rw [binResult_cmp, this]
  rfl

/-! ### What the outcome is -/

/-- **C07.** Numbers are ordered by their value, with -∞ first and ∞ last. -/
theorem float_lt_iff (env : Env) (dc : DecCtx) (x y : Dec) (p q : Nat × ℚ) (hx : x.key = some p)
    (hy : y.key = some q) :
    binResult env dc (.cmp .lt) (.dec x) (.dec y) = .ok (.bool true) ↔ keyLt p q := by
  have := decCmp_spec x y
  rw [hx, hy] at this
  simp only at this
  have hs : ∀ o, decCmp x y = some o → opCmpValues env.utcoffset (.dec x) .lt (.dec y) = .ok (CmpOp.lt.holds o) :=
    fun o ho => opCmpValues_of_ordOf _ _ _ _ (by simp only [ordOf]; exact ho)
  rw [binResult_cmp]
  rcases this with ⟨h, h'⟩ | ⟨h, h'⟩ | ⟨h, h'⟩ <;> rw [hs _ h]
  · simp [Except.map, CmpOp.holds, h']
  · subst h'; simp [Except.map, CmpOp.holds, keyLt_irrefl]
  · simp [Except.map, CmpOp.holds, keyLt_asymm h']

theorem lexCmp_lt_iff : ∀ xs ys : List Char,
    lexCmp (fun c d : Char => compare c.toNat d.toNat) xs ys = .lt ↔
      List.Lex (fun c d : Char => c.toNat < d.toNat) xs ys
  | [], [] => by simp [lexCmp]
  | [], _ :: _ => by simp [lexCmp]
  | _ :: _, [] => by simp [lexCmp]
  | x :: xs, y :: ys => by
    simp only [lexCmp]
    rcases lt_trichotomy x.toNat y.toNat with h | h | h
    · rw [compare_lt_iff_lt.mpr h]
      simp only [true_iff]
      exact List.Lex.rel h
    · have hxy := (charCmp_eq x y).mp (compare_eq_iff_eq.mpr h)
      subst hxy
      rw [compare_eq_iff_eq.mpr rfl]
      simp only [lexCmp_lt_iff xs ys]
      constructor
      · exact List.Lex.cons
      · intro hl
        cases hl with
        | cons h => exact h
        | rel h => exact absurd h (lt_irrefl _)
    · rw [compare_gt_iff_gt.mpr h]
      simp only [reduceCtorEq, false_iff]
      intro hl
      cases hl with
      | cons _ => exact absurd h (lt_irrefl _)
      | rel h' => omega

/-- **C07.** Strings are ordered lexicographically by code point. -/
theorem string_lt_iff (env : Env) (dc : DecCtx) (x y : String) :
    binResult env dc (.cmp .lt) (.str x) (.str y) = .ok (.bool true) ↔
      List.Lex (fun c d : Char => c.toNat < d.toNat) x.toList y.toList := by
  rw [binResult_cmp, opCmpValues_of_ordOf _ _ _ _ (by simp only [ordOf]; rfl), ← lexCmp_lt_iff]
  simp [Except.map, CmpOp.holds]

/-- **C07.** Datetimes in different zones are ordered by UTC time, timedeltas by length. -/
theorem datetime_lt_iff (env : Env) (dc : DecCtx) (x y : Int) (s t : Nat) (hst : s ≠ t) :
    binResult env dc (.cmp .lt) (.datetime x (some s)) (.datetime y (some t)) = .ok (.bool true) ↔
      utcOf env.utcoffset x s < utcOf env.utcoffset y t := by
  rw [binResult_cmp]
  simp [opCmpValues, Value.pyType, pyCmp, hst, Except.map, CmpOp.holds, compare_lt_iff_lt]

/-- **C07.** Arrays are ordered lexicographically. -/
theorem array_lt_iff (env : Env) (dc : DecCtx) (t : OrdType) (x y : Value) (xs ys : List Value)
    (hx : OrdVal env.utcoffset t x) (hy : OrdVal env.utcoffset t y)
    (hxs : ∀ z ∈ xs, OrdVal env.utcoffset t z) (hys : ∀ z ∈ ys, OrdVal env.utcoffset t z) :
    (binResult env dc (.cmp .lt) (.tuple (x :: xs)) (.tuple (y :: ys)) = .ok (.bool true) ↔
      binResult env dc (.cmp .lt) x y = .ok (.bool true) ∨
      (binResult env dc .eq x y = .ok (.bool true) ∧
        binResult env dc (.cmp .lt) (.tuple xs) (.tuple ys) = .ok (.bool true))) ∧
    binResult env dc (.cmp .lt) (.tuple []) (.tuple (y :: ys)) = .ok (.bool true) ∧
    binResult env dc (.cmp .lt) (.tuple (x :: xs)) (.tuple []) = .ok (.bool false) ∧
    binResult env dc (.cmp .lt) (.tuple []) (.tuple []) = .ok (.bool false) := by
  obtain ⟨o, ho⟩ := ordOf_total t x y hx hy
  obtain ⟨o', ho'⟩ := ordOf_total (.array t) (.tuple xs) (.tuple ys) ⟨xs, rfl, hxs⟩ ⟨ys, rfl, hys⟩
  have hl : ordList env.utcoffset xs ys = some o' := by
    simpa only [ordOf, and_self, if_true] using ho'
  have hc : ordOf env.utcoffset (.tuple (x :: xs)) (.tuple (y :: ys)) = some (o.then o') := by
    simp only [ordOf, and_self, if_true, ordList, ho]
    cases o
    · rfl
    · simpa using hl
    · rfl
  have e1 : ordOf env.utcoffset (.tuple []) (.tuple (y :: ys)) = some .lt := by simp [ordOf, ordList]
  have e2 : ordOf env.utcoffset (.tuple (x :: xs)) (.tuple []) = some .gt := by simp [ordOf, ordList]
  have e3 : ordOf env.utcoffset (.tuple []) (.tuple []) = some .eq := by simp [ordOf, ordList]
  obtain ⟨h3, h4⟩ := pyEq_of_ordOf x y o ho
  simp only [binResult_cmp, binResult_eq, opCmpValues_of_ordOf _ _ _ _ hc, opCmpValues_of_ordOf _ _ _ _ ho,
    opCmpValues_of_ordOf _ _ _ _ ho', opCmpValues_of_ordOf _ _ _ _ e1, opCmpValues_of_ordOf _ _ _ _ e2,
    opCmpValues_of_ordOf _ _ _ _ e3, opEq, h3, h4, if_true, Except.map, CmpOp.holds]
  cases o <;> cases o' <;> simp

/-- the hypotheses are met by nested arrays; and an example where the first difference is in the
second member -/
example : OrdVal sampleEnv.utcoffset (.array (.array .float))
    (.tuple [.tuple [.dec (.fin false 15 (-1))], .tuple []]) := by
  simp [OrdVal]

example : binResult sampleEnv .default (.cmp .lt)
    (.tuple [.tuple [.dec (.fin false 15 (-1))], .tuple []])
    (.tuple [.tuple [.dec (.fin false 150 (-2))], .tuple [.dec (.ofInt 0)]]) = .ok (.bool true) := by
  decide +kernel

end RE
