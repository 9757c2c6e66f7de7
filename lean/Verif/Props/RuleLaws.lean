import Verif.Props.RuleParts
import Verif.Props.Order
import Verif.Props.Arith

/-!
# Laws of comparison and arithmetic between whole rules (C69)
-/

set_option linter.unusedSimpArgs false
set_option linter.unusedVariables false

namespace RE

/-- the operator with its sides exchanged -/
def CmpOp.flip : CmpOp → CmpOp
  | .lt => .gt
  | .le => .ge
  | .gt => .lt
  | .ge => .le
  | .ne => .ne

theorem CmpOp.flip_holds (op : CmpOp) (o : Ordering) : op.flip.holds o.swap = op.holds o := by
  cases op <;> cases o <;> rfl

theorem pyEq_swap {off : TzDb} (htz : TzOk off) {a b : Value} (ha : a.WF off) (hb : b.WF off) :
    pyEq off a b = pyEq off b a := by
  rw [Bool.eq_iff_iff]
  exact ⟨pyEq_symm htz a b ha, pyEq_symm htz b a hb⟩

theorem pyCmp_flip {off : TzDb} (htz : TzOk off) {a b : Value} (ha : a.WF off) (hb : b.WF off) (op : CmpOp) :
    pyCmp off op a b = pyCmp off op.flip b a := by
  have hne : ∀ c : Except Err Bool,
      (if op = .ne then c else .error .typeError) = (if op.flip = .ne then c else .error .typeError) := by
    intro c; cases op <;> rfl
  have hpe := pyEq_swap htz ha hb
  have hi : ∀ x y : Int, op.holds (compare x y) = op.flip.holds (compare y x) := by
    intro x y; rw [compare_swap_int x y, CmpOp.flip_holds]
  have hl : ∀ {α : Type} {cmp : α → α → Ordering} (_ : ∀ a b, cmp b a = (cmp a b).swap) (x y : List α),
      op.holds (lexCmp cmp x y) = op.flip.holds (lexCmp cmp y x) := by
    intro α cmp h x y; rw [lexCmp_swap h x y, CmpOp.flip_holds]
  have hcs : ∀ c d : Char, compare d.toNat c.toNat = (compare c.toNat d.toNat).swap := fun c d => compare_swap_nat _ _
  have hus : ∀ c d : UInt8, compare d.toNat c.toNat = (compare c.toNat d.toNat).swap := fun c d => compare_swap_nat _ _
  cases a <;> cases b <;>
    first
    | (simp only [pyCmp]; rw [hpe, hne])
    | (simp only [pyCmp]; rw [hne])
    | (simp only [pyCmp]; rw [hi])
    | (simp only [pyCmp]; rw [hl hcs])
    | (simp only [pyCmp]; rw [hl hus])
    | skip
  · simp only [pyCmp]
    rw [← CmpOp.flip_holds, ← compare_swap_nat]
  · rename_i x y
    simp only [pyCmp, decCmp_swap x.exact y.exact]
    cases decCmp x.exact y.exact with
    | none => cases op <;> rfl
    | some o => simp only [Option.map_some, CmpOp.flip_holds]
  · rename_i x y
    simp only [pyCmp, decCmpOp, decCmp_swap x y]
    cases decCmp x y with
    | none => cases op <;> rfl
    | some o => simp only [Option.map_some, CmpOp.flip_holds]
  · rename_i x s y t
    cases s with
    | none => cases t with
      | none => simp only [pyCmp, hi]
      | some t => simp only [pyCmp]
    | some s => cases t with
      | none => simp only [pyCmp]
      | some t =>
        simp only [pyCmp]
        by_cases h : s = t
        · subst h; simp only [if_true, hi]
        · rw [if_neg h, if_neg (Ne.symm h), datetimeEq_symm]
          by_cases ho : op = .ne
          · subst ho; rfl
          · rw [if_neg ho, if_neg (by cases op <;> simp_all [CmpOp.flip])]; rw [hi]
  · rename_i xs ys
    simp only [pyCmp]
    cases op <;> simp only [CmpOp.flip, hpe]

theorem opCmpValues_other {off : TzDb} {a b : Value} {op : CmpOp} (h : ¬ (a = .none ∧ b = .none))
    (h' : ¬ ∃ xs ys, a = .seq .tuple xs ∧ b = .seq .tuple ys) :
    opCmpValues off a op b = if a.pyType = b.pyType then pyCmp off op a b else .error .mismatch := by
  rw [opCmpValues.eq_def]
  split
  · exact (h ⟨rfl, rfl⟩).elim
  · exact (h' ⟨_, _, rfl, rfl⟩).elim
  · rfl

theorem opCmpValues_flip_other {off : TzDb} (htz : TzOk off) {a b : Value} {op : CmpOp} (ha : a.WF off) (hb : b.WF off)
    (h : ¬ (a = .none ∧ b = .none)) (h' : ¬ ∃ xs ys, a = .seq .tuple xs ∧ b = .seq .tuple ys) :
    opCmpValues off a op b = opCmpValues off b op.flip a := by
  rw [opCmpValues_other h h', opCmpValues_other (fun g => h g.symm) (fun ⟨xs, ys, g⟩ => h' ⟨ys, xs, g.symm⟩),
    pyCmp_flip htz ha hb]
  simp only [eq_comm]

mutual
theorem opCmpValues_flip {off : TzDb} (htz : TzOk off) : ∀ (a b : Value) (op : CmpOp), a.WF off → b.WF off →
    opCmpValues off a op b = opCmpValues off b op.flip a
  | .seq k xs, b, op, ha, hb => by
    by_cases h : k = .tuple ∧ ∃ ys, b = .seq .tuple ys
    · obtain ⟨rfl, ys, rfl⟩ := h
      simp only [opCmpValues]
      exact opCmpArrays_flip htz xs ys op _ _ ha.1 hb.1
    · refine opCmpValues_flip_other htz ha hb (by simp) ?_
      rintro ⟨xs', ys, h1, h2⟩
      cases h1
      exact h ⟨rfl, ys, h2⟩
  | .none, b, op, ha, hb => by
    by_cases h : b = .none
    · subst h; cases op <;> rfl
    · exact opCmpValues_flip_other htz ha hb (by simp [h]) (by rintro ⟨_, _, h, _⟩; cases h)
  | .bool x, b, op, ha, hb | .int x, b, op, ha, hb | .float x, b, op, ha, hb | .dec x, b, op, ha, hb
  | .str x, b, op, ha, hb | .bytes x, b, op, ha, hb | .date x, b, op, ha, hb | .datetime x _, b, op, ha, hb
  | .timedelta x, b, op, ha, hb | .set x, b, op, ha, hb | .map x _, b, op, ha, hb | .builtinFn x, b, op, ha, hb
  | .userFn x, b, op, ha, hb | .method x _, b, op, ha, hb | .obj x, b, op, ha, hb | .undef, b, op, ha, hb =>
    opCmpValues_flip_other htz ha hb (by simp) (by rintro ⟨_, _, h, _⟩; cases h)
theorem opCmpArrays_flip {off : TzDb} (htz : TzOk off) : ∀ (xs ys : List Value) (op : CmpOp) (n m : Nat),
    Value.AllWF off xs → Value.AllWF off ys →
    opCmpArrays off xs op ys n m = opCmpArrays off ys op.flip xs m n
  | [], ys, op, n, m, _, hy => by
    have : ∀ c c' : Except Err Bool, c = c' → (if n ≠ m then c else .ok (op == .ge || op == .le)) =
        (if m ≠ n then c' else .ok (op.flip == .ge || op.flip == .le)) := by
      rintro c c' rfl
      by_cases h : n = m
      · subst h; cases op <;> simp <;> decide
      · simp [h, Ne.symm h]
    cases ys <;> simp only [opCmpArrays] <;> exact this _ _ (pyCmp_flip htz (by simp only [Value.WF]) (by simp only [Value.WF]) op)
  | x :: xs, [], op, n, m, _, _ => by
    have : ∀ c c' : Except Err Bool, c = c' → (if n ≠ m then c else .ok (op == .ge || op == .le)) =
        (if m ≠ n then c' else .ok (op.flip == .ge || op.flip == .le)) := by
      rintro c c' rfl
      by_cases h : n = m
      · subst h; cases op <;> simp <;> decide
      · simp [h, Ne.symm h]
    simp only [opCmpArrays]
    exact this _ _ (pyCmp_flip htz (by simp only [Value.WF]) (by simp only [Value.WF]) op)
  | x :: xs, y :: ys, op, n, m, hx, hy => by
    simp only [opCmpArrays]
    rw [opCmpValues_flip htz x y .ne hx.1 hy.1, opCmpValues_flip htz x y op hx.1 hy.1,
      opCmpArrays_flip htz xs ys op n m hx.2 hy.2]
    rfl
end


/-! ### From values to rules -/

/-- The text `(a) op (b)`. -/
def binText (a : List Char) (k : Kind) (b : List Char) : List Char := par a ++ ' ' :: (spelling k ++ ' ' :: par b)

theorem on_values (env : Env) (op : BinOp) (v w : Value) : op.on env (.ok v) (.ok w) = binResult env env.decCtx op v w := by
  unfold binResult
  simp only [eval]
  exact (bin_out (l := pure v) (r := pure w) (s := St.init) (fun a s' h => rfl)).symm

/-- The rule has been made, and gives the outcome for the thing. -/
def Outcome (codec : LitCodec) (env : Env) (thing : Value) (p : Proc) (t : List Char) (x : Except Err Value) : Prop :=
  ∃ e, Part codec env env.decCtx t e ∧ (p.evaluate env e thing).1 = x

variable {codec : LitCodec} {env : Env} {thing : Value} {p : Proc} {a b c m : List Char} {x y z : Except Err Value}

theorem Outcome.unique (h : Outcome codec env thing p a x) (h' : Outcome codec env thing p a y) : x = y := by
  obtain ⟨e, he, rfl⟩ := h
  obtain ⟨e', he', rfl⟩ := h'
  cases Part.unique he he'
  rfl

/-- what `(a) op (b)` gives is what the operator gives for what `a` and `b` give -/
theorem Outcome.operator {k : Kind} (hk : k ∈ binaryKinds) (ha : Outcome codec env thing p a x)
    (hb : Outcome codec env thing p b y) (hg : NoGroups codec b) (h : Outcome codec env thing p (binText a k b) z) :
    z = (meaning k).on env x y := by
  obtain ⟨l, hl, rfl⟩ := ha
  obtain ⟨r, hr, rfl⟩ := hb
  obtain ⟨e, he, rfl⟩ := h
  obtain ⟨acts, ho⟩ := he.outcome
  exact operator_of_rules hl hr hg k hk acts ho thing p

theorem Outcome.values {k : Kind} (hk : k ∈ binaryKinds) {v w : Value} (ha : Outcome codec env thing p a (.ok v))
    (hb : Outcome codec env thing p b (.ok w)) (hg : NoGroups codec b) (h : Outcome codec env thing p (binText a k b) z) :
    z = binResult env env.decCtx (meaning k) v w := by
  rw [ha.operator hk hb hg h, on_values]

theorem Outcome.negation (ha : Outcome codec env thing p a x) (h : Outcome codec env thing p ("not ".toList ++ par a) z) :
    z = x.map fun v => .bool (!v.truthy) := by
  obtain ⟨l, hl, rfl⟩ := ha
  obtain ⟨e, he, rfl⟩ := h
  obtain ⟨acts, ho⟩ := he.outcome
  exact not_of_rule hl acts ho thing p

/-- The text `(m) in (c)`. -/
def inText (m c : List Char) : List Char := par m ++ " in ".toList ++ par c

theorem containsOn_values (env : Env) (c m : Value) : containsOn env (.ok c) (.ok m) = inResult env env.decCtx m c := by
  unfold inResult
  rw [contains_out (s := St.init) (fun s' h => by simp only [eval]; rfl)]
  simp only [eval]
  rfl

theorem Outcome.contains {v w : Value} (hm : Outcome codec env thing p m (.ok v)) (hc : Outcome codec env thing p c (.ok w))
    (hg : NoGroups codec m) (h : Outcome codec env thing p (inText m c) z) : z = inResult env env.decCtx v w := by
  obtain ⟨l, hl, h1⟩ := hm
  obtain ⟨r, hr, h2⟩ := hc
  obtain ⟨e, he, rfl⟩ := h
  obtain ⟨acts, ho⟩ := he.outcome
  rw [in_of_rules hl hr hg acts ho thing p, h1, h2, containsOn_values]

/-- rules made from rules: the parts of an operator text are rules -/
theorem Outcome.parts {k : Kind} (hk : k ∈ binaryKinds) (ha : NoGroups codec a) (hb : NoGroups codec b)
    (h : Outcome codec env thing p (binText a k b) z) :
    (∃ x, Outcome codec env thing p a x) ∧ ∃ y, Outcome codec env thing p b y := by
  obtain ⟨e, he, -⟩ := h
  obtain ⟨l, r, hl, hr⟩ := he.split_bin hk ha hb
  exact ⟨⟨_, l, hl, rfl⟩, ⟨_, r, hr, rfl⟩⟩

/-! ### Comparisons -/

/-- the comparison kinds and the ones for the exchanged sides -/
def exchanged : List (Kind × Kind) := [(.LT, .GT), (.GT, .LT), (.LE, .GE), (.GE, .LE), (.EQ, .EQ), (.NE, .NE)]

/-- **C69.** `(a) < (b)` and `(b) > (a)` give the same, so do `<=`/`>=`, `==` and `!=` with exchanged sides: the same
truth value, or the same exception. -/
theorem compare_exchanged {k k' : Kind} (hk : (k, k') ∈ exchanged) (htz : TzOk env.utcoffset) {v w : Value}
    (ha : Outcome codec env thing p a (.ok v)) (hb : Outcome codec env thing p b (.ok w)) (hga : NoGroups codec a)
    (hgb : NoGroups codec b) (hv : v.WF env.utcoffset) (hw : w.WF env.utcoffset)
    (h : Outcome codec env thing p (binText a k b) x) (h' : Outcome codec env thing p (binText b k' a) y) : x = y := by
  have hk1 : k ∈ binaryKinds ∧ k' ∈ binaryKinds := by
    simp only [exchanged, List.mem_cons, Prod.mk.injEq, List.not_mem_nil, or_false] at hk
    rcases hk with ⟨rfl, rfl⟩ | ⟨rfl, rfl⟩ | ⟨rfl, rfl⟩ | ⟨rfl, rfl⟩ | ⟨rfl, rfl⟩ | ⟨rfl, rfl⟩ <;> decide
  rw [ha.values hk1.1 hb hgb h, hb.values hk1.2 ha hga h']
  simp only [exchanged, List.mem_cons, Prod.mk.injEq, List.not_mem_nil, or_false] at hk
  rcases hk with ⟨rfl, rfl⟩ | ⟨rfl, rfl⟩ | ⟨rfl, rfl⟩ | ⟨rfl, rfl⟩ | ⟨rfl, rfl⟩ | ⟨rfl, rfl⟩
  · simp only [meaning, binResult_cmp]; rw [opCmpValues_flip htz v w _ hv hw]; rfl
  · simp only [meaning, binResult_cmp]; rw [opCmpValues_flip htz v w _ hv hw]; rfl
  · simp only [meaning, binResult_cmp]; rw [opCmpValues_flip htz v w _ hv hw]; rfl
  · simp only [meaning, binResult_cmp]; rw [opCmpValues_flip htz v w _ hv hw]; rfl
  · exact eq_symmetric env _ htz v w hv hw
  · simp only [meaning, binResult_ne, opNe, pyNe, pyEq_swap htz hv hw, eq_comm (a := v.pyType)]

/-- **C69.** For values of one orderable type, exactly one of `(a) < (b)`, `(a) == (b)`, `(a) > (b)` is true. -/
theorem one_of_three {t : OrdType} {v w : Value} (ha : Outcome codec env thing p a (.ok v))
    (hb : Outcome codec env thing p b (.ok w)) (hgb : NoGroups codec b) (hv : OrdVal env.utcoffset t v)
    (hw : OrdVal env.utcoffset t w) (h1 : Outcome codec env thing p (binText a .LT b) x)
    (h2 : Outcome codec env thing p (binText a .EQ b) y) (h3 : Outcome codec env thing p (binText a .GT b) z) :
    (x, y, z) = (.ok (.bool true), .ok (.bool false), .ok (.bool false)) ∨
    (x, y, z) = (.ok (.bool false), .ok (.bool true), .ok (.bool false)) ∨
    (x, y, z) = (.ok (.bool false), .ok (.bool false), .ok (.bool true)) := by
  rw [ha.values (by decide) hb hgb h1, ha.values (by decide) hb hgb h2, ha.values (by decide) hb hgb h3]
  obtain ⟨l, e, g, r1, r2, r3, h, -⟩ := ordering_coherent env env.decCtx t v w hv hw
  simp only [meaning, r1, r2, r3]
  simp only [Prod.mk.injEq] at h ⊢
  rcases h with ⟨rfl, rfl, rfl⟩ | ⟨rfl, rfl, rfl⟩ | ⟨rfl, rfl, rfl⟩ <;> simp

/-- **C69.** For values of one orderable type, `(a) <= (b)` and `not ((b) < (a))` give the same truth value. -/
theorem le_not_lt {t : OrdType} {v w : Value} (ha : Outcome codec env thing p a (.ok v))
    (hb : Outcome codec env thing p b (.ok w)) (hga : NoGroups codec a) (hgb : NoGroups codec b)
    (hv : OrdVal env.utcoffset t v) (hw : OrdVal env.utcoffset t w)
    (h : Outcome codec env thing p (binText a .LE b) x)
    (h' : Outcome codec env thing p ("not ".toList ++ par (binText b .LT a)) y) : x = y ∧ ∃ q, x = .ok (.bool q) := by
  have hlt : ∃ z, Outcome codec env thing p (binText b .LT a) z := by
    obtain ⟨e, he, -⟩ := h'
    obtain ⟨l, hl⟩ := he.split_not (noGroups_bin hgb hga .LT (by decide))
    exact ⟨_, l, hl, rfl⟩
  obtain ⟨z, hz⟩ := hlt
  rw [hz.negation h', ha.values (by decide) hb hgb h, hb.values (by decide) ha hga hz]
  obtain ⟨o, ho⟩ := ordOf_total t v w hv hw
  have ho' : ordOf env.utcoffset w v = some o.swap := by rw [ordOf_swap, ho]; rfl
  simp only [meaning, binResult_cmp, opCmpValues_of_ordOf _ _ _ _ ho, opCmpValues_of_ordOf _ _ _ _ ho']
  cases o <;> simp [Except.map, CmpOp.holds, Value.truthy]

/-- **C69.** `<=` is transitive: if `(a) <= (b)` and `(b) <= (c)` are true, so is `(a) <= (c)`. -/
theorem le_transitive {t : OrdType} {u v w : Value} (htz : TzOk env.utcoffset) (ha : Outcome codec env thing p a (.ok u))
    (hb : Outcome codec env thing p b (.ok v)) (hc : Outcome codec env thing p c (.ok w)) (hgb : NoGroups codec b)
    (hgc : NoGroups codec c) (hu : OrdVal env.utcoffset t u) (hv : OrdVal env.utcoffset t v)
    (hw : OrdVal env.utcoffset t w) (h1 : Outcome codec env thing p (binText a .LE b) (.ok (.bool true)))
    (h2 : Outcome codec env thing p (binText b .LE c) (.ok (.bool true)))
    (h3 : Outcome codec env thing p (binText a .LE c) z) : z = .ok (.bool true) := by
  rw [ha.values (by decide) hc hgc h3]
  exact (le_trans_lt env env.decCtx htz t u v w hu hv hw (ha.values (by decide) hb hgb h1).symm
    (hb.values (by decide) hc hgc h2).symm).1

/-! ### Arithmetic -/

/-- **C69.** `(a) + (b)` and `(b) + (a)` give the same when `a` and `b` give numbers, and so do `*`, `&`, `|` and `^`. -/
theorem operands_exchanged {k : Kind} (hk : k ∈ [Kind.ADD, .MUL, .BWAND, .BWOR, .BWXOR]) {v w : Dec}
    (ha : Outcome codec env thing p a (.ok (.dec v))) (hb : Outcome codec env thing p b (.ok (.dec w)))
    (hga : NoGroups codec a) (hgb : NoGroups codec b) (h : Outcome codec env thing p (binText a k b) x)
    (h' : Outcome codec env thing p (binText b k a) y) : x = y := by
  have hk1 : k ∈ binaryKinds := by
    simp only [List.mem_cons, List.not_mem_nil, or_false] at hk
    rcases hk with rfl | rfl | rfl | rfl | rfl <;> decide
  rw [ha.values hk1 hb hgb h, hb.values hk1 ha hga h']
  have hbit : ∀ op : BitOp, op ∈ [BitOp.and, .or, .xor] → binResult env env.decCtx (.bit op) (.dec v) (.dec w) =
      binResult env env.decCtx (.bit op) (.dec w) (.dec v) := by
    intro op hop
    have hn : bitNode op = .bit op := by
      simp only [List.mem_cons, List.not_mem_nil, or_false] at hop
      rcases hop with rfl | rfl | rfl <;> rfl
    rw [← hn, binResult_bit_dec, binResult_bit_dec]
    simp only [opBitNat]
    rcases assertNatural_dec v with ⟨_, _, e1⟩ | ⟨_, e1⟩ <;> rcases assertNatural_dec w with ⟨_, _, e2⟩ | ⟨_, e2⟩ <;>
      rw [e1, e2] <;> try rfl
    simp only [except_ok_bind]
    have hc : ∀ m n : Nat, bitNat op m n = bitNat op n m := by
      intro m n
      simp only [List.mem_cons, List.not_mem_nil, or_false] at hop
      rcases hop with rfl | rfl | rfl
      · exact Nat.and_comm m n
      · exact Nat.or_comm m n
      · exact Nat.xor_comm m n
    rw [hc]
  simp only [List.mem_cons, List.not_mem_nil, or_false] at hk
  rcases hk with rfl | rfl | rfl | rfl | rfl
  · exact add_commutative env _ v w
  · exact mul_commutative env _ v w
  · exact hbit _ (by decide)
  · exact hbit _ (by decide)
  · exact hbit _ (by decide)

/-- **C69.** Joining texts is associative: `((a) + (b)) + (c)` and `(a) + ((b) + (c))` give the same text, the three
texts one after the other. -/
theorem join_assoc {u v w : String} (ha : Outcome codec env thing p a (.ok (.str u)))
    (hb : Outcome codec env thing p b (.ok (.str v))) (hc : Outcome codec env thing p c (.ok (.str w)))
    (hga : NoGroups codec a) (hgb : NoGroups codec b) (hgc : NoGroups codec c)
    (h : Outcome codec env thing p (binText (binText a .ADD b) .ADD c) x)
    (h' : Outcome codec env thing p (binText a .ADD (binText b .ADD c)) y) :
    x = .ok (.str (u ++ v ++ w)) ∧ y = .ok (.str (u ++ v ++ w)) := by
  have hadd : ∀ s t : String, binResult env env.decCtx (meaning .ADD) (.str s) (.str t) = .ok (.str (s ++ t)) :=
    fun s t => rfl
  obtain ⟨⟨z, hz⟩, -⟩ := h.parts (by decide) (noGroups_bin hga hgb .ADD (by decide)) hgc
  obtain ⟨-, z', hz'⟩ := h'.parts (by decide) hga (noGroups_bin hgb hgc .ADD (by decide))
  have e1 := ha.values (by decide) hb hgb hz
  have e2 := hb.values (by decide) hc hgc hz'
  rw [hadd] at e1 e2
  subst e1 e2
  rw [hz.values (by decide) hc hgc h, ha.values (by decide) hz' (noGroups_bin hgb hgc .ADD (by decide)) h', hadd, hadd,
    String.append_assoc]
  exact ⟨rfl, rfl⟩

/-! ### Sets -/

theorem typesOf_all {xs : List Value} : (∃ ts, typesOf xs = .ok ts) ↔ ∀ x ∈ xs, ∃ t, fromValue x = .ok t := by
  induction xs with
  | nil => simp [typesOf]
  | cons x xs ih =>
    simp only [typesOf, List.mem_cons, forall_eq_or_imp, ← ih, except_bind_ok]
    constructor
    · rintro ⟨_, t, h, ts, h', -⟩
      exact ⟨⟨t, h⟩, ts, h'⟩
    · rintro ⟨⟨t, h⟩, ts, h'⟩
      exact ⟨_, t, h, ts, h', rfl⟩

theorem setType_ok {xs : List Value} : (∃ t, fromValue (.set xs) = .ok t) ↔ ∀ x ∈ xs, ∃ t, fromValue x = .ok t := by
  rw [← typesOf_all]
  simp only [fromValue, except_bind_ok]
  exact ⟨fun ⟨_, ts, h, _⟩ => ⟨ts, h⟩, fun ⟨ts, h⟩ => ⟨_, ts, h, rfl⟩⟩

theorem bitSet_sub {off : TzDb} {op : BitOp} {xs ys zs : List Value} (h : bitSet off op xs ys = .ok zs) :
    ∀ z ∈ zs, z ∈ xs ∨ z ∈ ys := by
  unfold bitSet at h
  cases op <;> simp only [Except.ok.injEq, reduceCtorEq] at h <;> subst h <;> intro z hz <;>
    simp only [List.mem_append, List.mem_filter] at hz <;> tauto

/-- combining sets of values of the engine gives a set of values of the engine with the members it should have -/
theorem combine_sets {op : BitOp} (hop : op = .and ∨ op = .or ∨ op = .xor) (htz : TzOk env.utcoffset)
    {xs ys : List Value} (hx : (Value.set xs).WF env.utcoffset)
    (hy : (Value.set ys).WF env.utcoffset) (htx : ∃ t, fromValue (.set xs) = .ok t)
    (hty : ∃ t, fromValue (.set ys) = .ok t) :
    ∃ zs, binResult env env.decCtx (.bit op) (.set xs) (.set ys) = .ok (.set zs) ∧ (Value.set zs).WF env.utcoffset ∧
      (∃ t, fromValue (.set zs) = .ok t) ∧
      (∀ v, SetSpec op (SetHas env.utcoffset xs v) (SetHas env.utcoffset ys v) (SetHas env.utcoffset zs v)) ∧
      ∀ z ∈ zs, z ∈ xs ∨ z ∈ ys := by
  obtain ⟨t, ht⟩ := htx
  obtain ⟨u, hu⟩ := hty
  obtain ⟨zs, h1, h2, h3⟩ := set_algebra env env.decCtx htz op hop xs ys t u hx hy ht hu
  have hsub : ∀ z ∈ zs, z ∈ xs ∨ z ∈ ys := by
    unfold binResult at h1
    have htf : DataType.eq t .float = false := by
      simp only [fromValue] at ht
      obtain ⟨ts, -, ht⟩ := except_bind_ok.mp ht
      injection ht with ht; subst ht; rfl
    simp only [eval, evalBin, M.bind_apply, M.pure_apply, M.lift_apply, ht, htf, Bool.false_eq_true,
      if_false, opBitSet, hu, except_ok_bind] at h1
    split at h1
    · obtain ⟨zs', h4, h5⟩ := except_bind_ok.mp h1
      cases h5
      exact bitSet_sub h4
    · cases h1
  refine ⟨zs, h1, h2, ?_, h3, hsub⟩
  rw [setType_ok]
  exact fun z hz => (hsub z hz).elim (setType_ok.1 ⟨t, ht⟩ z) (setType_ok.1 ⟨u, hu⟩ z)

theorem opNe_bool (off : TzDb) (q r : Bool) : opNe off (.bool q) (.bool r) = (q != r) := by
  cases q <;> cases r <;> simp only [opNe, pyNe, pyEq, Value.pyType, Value.asNumber, if_true] <;> decide

/-- the connective that belongs to a set operator -/
def connective : Kind → Kind
  | .BWAND => .AND
  | .BWXOR => .NE
  | _ => .OR

/-- **C69.** `(m) in ((a) | (b))` gives the same as `((m) in (a)) or ((m) in (b))`, with `&` the same as with `and`, and with
`^` the same as with `!=`. -/
theorem in_combined {k : Kind} (hk : k ∈ [Kind.BWAND, .BWOR, .BWXOR]) (htz : TzOk env.utcoffset) {v : Value}
    {xs ys : List Value} (hm : Outcome codec env thing p m (.ok v)) (ha : Outcome codec env thing p a (.ok (.set xs)))
    (hb : Outcome codec env thing p b (.ok (.set ys))) (hgm : NoGroups codec m) (hga : NoGroups codec a)
    (hgb : NoGroups codec b) (hv : v.hashable = true) (hx : (Value.set xs).WF env.utcoffset)
    (hy : (Value.set ys).WF env.utcoffset) (htx : ∃ t, fromValue (.set xs) = .ok t)
    (hty : ∃ t, fromValue (.set ys) = .ok t)
    (h : Outcome codec env thing p (inText m (binText a k b)) x)
    (h' : Outcome codec env thing p (binText (inText m a) (connective k) (inText m b)) y) :
    x = y ∧ ∃ q, x = .ok (.bool q) := by
  have hk1 : k ∈ binaryKinds ∧ connective k ∈ binaryKinds := by
    simp only [List.mem_cons, List.not_mem_nil, or_false] at hk
    rcases hk with rfl | rfl | rfl <;> decide
  have hga' := noGroups_in hgm hga
  have hgb' := noGroups_in hgm hgb
  obtain ⟨⟨x1, h1⟩, y1, h2⟩ := h'.parts hk1.2 hga' hgb'
  have hu : ∃ u, Outcome codec env thing p (binText a k b) u := by
    obtain ⟨e, he, -⟩ := h
    obtain ⟨l, r, hl, hr⟩ := he.split_in hgm (noGroups_bin hga hgb k hk1.1)
    exact ⟨_, r, hr, rfl⟩
  obtain ⟨u, hu⟩ := hu
  have eu := ha.values hk1.1 hb hgb hu
  have e1 := hm.contains ha hgm h1
  have e2 := hm.contains hb hgm h2
  obtain ⟨t1, ht1⟩ := htx
  obtain ⟨t2, ht2⟩ := hty
  obtain ⟨b1, r1, i1⟩ := in_collection env env.decCtx v _ t1 xs ht1 rfl (.inl hv)
  obtain ⟨b2, r2, i2⟩ := in_collection env env.decCtx v _ t2 ys ht2 rfl (.inl hv)
  rw [r1] at e1
  rw [r2] at e2
  subst e1 e2
  have key : ∀ op : BitOp, (op = .and ∨ op = .or ∨ op = .xor) → meaning k = .bit op →
      ∃ b3 : Bool, x = .ok (.bool b3) ∧ SetSpec op (b1 = true) (b2 = true) (b3 = true) := by
    intro op hop hmk
    obtain ⟨zs, h1, h2, ⟨t3, ht3⟩, h3, -⟩ := combine_sets hop htz hx hy ⟨t1, ht1⟩ ⟨t2, ht2⟩
    rw [hmk, h1] at eu
    subst eu
    obtain ⟨b3, r3, i3⟩ := in_collection env env.decCtx v _ t3 zs ht3 rfl (.inl hv)
    refine ⟨b3, by rw [hm.contains hu hgm h, r3], ?_⟩
    have := h3 v
    unfold SetHas at this
    rw [← i1, ← i2, ← i3] at this
    exact this
  have ey := h1.values hk1.2 h2 hgb' h'
  simp only [List.mem_cons, List.not_mem_nil, or_false] at hk
  rcases hk with rfl | rfl | rfl
  · obtain ⟨b3, rfl, h4⟩ := key .and (by simp) rfl
    rw [ey]
    simp only [connective, meaning]
    refine ⟨?_, _, rfl⟩
    rw [← on_values]
    simp only [SetSpec] at h4
    cases b1 <;> cases b2 <;> cases b3 <;> first | (simp at h4; done) | rfl
  · obtain ⟨b3, rfl, h4⟩ := key .or (by simp) rfl
    rw [ey]
    simp only [connective, meaning]
    refine ⟨?_, _, rfl⟩
    rw [← on_values]
    simp only [SetSpec] at h4
    cases b1 <;> cases b2 <;> cases b3 <;> first | (simp at h4; done) | rfl
  · obtain ⟨b3, rfl, h4⟩ := key .xor (by simp) rfl
    rw [ey]
    simp only [connective, meaning, binResult_ne, opNe_bool]
    refine ⟨?_, _, rfl⟩
    simp only [SetSpec] at h4
    cases b1 <;> cases b2 <;> cases b3 <;> first | (simp at h4; done) | rfl


theorem injects_length {α β : Type} {R : α → β → Prop} : ∀ (xs : List α) (ys : List β),
    (∀ x ∈ xs, ∃ y ∈ ys, R x y) → xs.Pairwise (fun x x' => ∀ y ∈ ys, R x y → ¬ R x' y) → xs.length ≤ ys.length
  | [], ys, _, _ => by simp
  | x :: xs, ys, h, hp => by
    obtain ⟨y, hy, hr⟩ := h x (by simp)
    obtain ⟨l1, l2, rfl⟩ := List.append_of_mem hy
    rw [List.pairwise_cons] at hp
    have := injects_length xs (l1 ++ l2) (fun x' hx' => by
      obtain ⟨y', hy', hr'⟩ := h x' (by simp [hx'])
      refine ⟨y', ?_, hr'⟩
      have hne : y' ≠ y := by
        rintro rfl
        exact hp.1 x' hx' y' hy hr hr'
      simp only [List.mem_append, List.mem_cons] at hy' ⊢
      rcases hy' with h | h | h
      · exact .inl h
      · exact (hne h).elim
      · exact .inr h) (hp.2.imp_of_mem (fun _ _ h y hy => h y (by
        simp only [List.mem_append, List.mem_cons] at hy ⊢; tauto)))
    simp only [List.length_append, List.length_cons] at this ⊢
    omega

/-- sets without NaN with the same members are equal -/
theorem sets_equal {off : TzDb} (htz : TzOk off) {xs ys : List Value} (hx : (Value.set xs).WF off)
    (hy : (Value.set ys).WF off) (nx : (Value.set xs).NoNaN) (ny : (Value.set ys).NoNaN)
    (h : ∀ v, SetHas off xs v ↔ SetHas off ys v) : pyEq off (.set xs) (.set ys) = true := by
  have hle : ∀ {xs ys : List Value}, (Value.set xs).WF off → (Value.set ys).WF off → (Value.set xs).NoNaN →
      (∀ v, SetHas off xs v → SetHas off ys v) → xs.length ≤ ys.length ∧ ∀ x ∈ xs, ∃ y ∈ ys, pyEq off x y = true := by
    intro xs ys hx hy nx h
    have hgx := set_member_good hx
    have hgy := set_member_good hy
    have hm : ∀ x ∈ xs, ∃ y ∈ ys, pyEq off x y = true := by
      intro x hx'
      obtain ⟨y, hy', e⟩ := h x ⟨x, hx', pyEqMem_refl xs (by simpa [Value.NoNaN] using nx) x hx'⟩
      exact ⟨y, hy', pyEq_symm htz y x (hgy y hy').1 e⟩
    refine ⟨injects_length (R := fun x y => pyEq off x y = true) xs ys hm ?_, hm⟩
    simp only [Value.WF, allWF_iff] at hx
    refine hx.2.2.imp_of_mem ?_
    intro x x' hx1 hx2 hne y hy' e1 e2
    have e3 := pyEq_symm htz x' y (hgx x' hx2).1 e2
    have := pyEq_trans htz x y x' (noDict_of_hashable x y (hgx x hx1).1 (hgx x hx1).2 e1) e1 e3
    rw [hne] at this
    cases this
  obtain ⟨l1, m1⟩ := hle hx hy nx (fun v => (h v).1)
  obtain ⟨l2, -⟩ := hle hy hx ny (fun v => (h v).2)
  exact pyEq_set_left.2 ⟨ys, rfl, Nat.le_antisymm l1 l2, pySubset_iff.2 m1⟩

/-- **C69.** `((a) | (b)) == ((b) | (a))` is true for sets, and so with `&` and `^`. -/
theorem sets_exchanged {k : Kind} (hk : k ∈ [Kind.BWAND, .BWOR, .BWXOR]) (htz : TzOk env.utcoffset)
    {xs ys : List Value} (ha : Outcome codec env thing p a (.ok (.set xs))) (hb : Outcome codec env thing p b (.ok (.set ys)))
    (hga : NoGroups codec a) (hgb : NoGroups codec b) (hx : (Value.set xs).WF env.utcoffset)
    (hy : (Value.set ys).WF env.utcoffset) (nx : (Value.set xs).NoNaN) (ny : (Value.set ys).NoNaN)
    (htx : ∃ t, fromValue (.set xs) = .ok t) (hty : ∃ t, fromValue (.set ys) = .ok t)
    (h : Outcome codec env thing p (binText (binText a k b) .EQ (binText b k a)) z) : z = .ok (.bool true) := by
  have hk1 : k ∈ binaryKinds := by
    simp only [List.mem_cons, List.not_mem_nil, or_false] at hk
    rcases hk with rfl | rfl | rfl <;> decide
  obtain ⟨op, hop, hmk⟩ : ∃ op : BitOp, (op = .and ∨ op = .or ∨ op = .xor) ∧ meaning k = .bit op := by
    simp only [List.mem_cons, List.not_mem_nil, or_false] at hk
    rcases hk with rfl | rfl | rfl
    · exact ⟨.and, by simp, rfl⟩
    · exact ⟨.or, by simp, rfl⟩
    · exact ⟨.xor, by simp, rfl⟩
  have g1 := noGroups_bin hga hgb k hk1
  have g2 := noGroups_bin hgb hga k hk1
  obtain ⟨⟨x1, h1⟩, y1, h2⟩ := h.parts (by decide) g1 g2
  have e1 := ha.values hk1 hb hgb h1
  have e2 := hb.values hk1 ha hga h2
  obtain ⟨zs, r1, w1, -, s1, m1⟩ := combine_sets hop htz hx hy htx hty
  obtain ⟨zs', r2, w2, -, s2, m2⟩ := combine_sets hop htz hy hx hty htx
  rw [hmk, r1] at e1
  rw [hmk, r2] at e2
  subst e1 e2
  rw [h1.values (by decide) h2 g2 h]
  simp only [meaning, binResult_eq, opEq, Value.pyType, if_true]
  have hnan : ∀ {us : List Value}, (∀ u ∈ us, u ∈ xs ∨ u ∈ ys) → (Value.set us).NoNaN := by
    intro us hu
    have hall : ∀ {us : List Value}, Value.AllNoNaN us ↔ ∀ u ∈ us, u.NoNaN := by
      intro us
      induction us with
      | nil => simp [Value.AllNoNaN]
      | cons u us ih => simp [Value.AllNoNaN, ih]
    simp only [Value.NoNaN, hall] at nx ny ⊢
    exact fun u h => (hu u h).elim (nx u) (ny u)
  rw [sets_equal htz w1 w2 (hnan m1) (hnan fun u h => (m2 u h).symm)]
  intro v
  have q1 := s1 v
  have q2 := s2 v
  rcases hop with rfl | rfl | rfl <;> simp only [SetSpec] at q1 q2 <;> rw [q1, q2] <;> tauto


/-! ### Attributes -/

theorem seqType_ok {k : SeqKind} {xs : List Value} :
    (∃ t, fromValue (.seq k xs) = .ok t) ↔ ∀ x ∈ xs, ∃ t, fromValue x = .ok t := by
  rw [← typesOf_all]
  simp only [fromValue, except_bind_ok]
  exact ⟨fun ⟨_, ts, h, _⟩ => ⟨ts, h⟩, fun ⟨ts, h⟩ => ⟨_, ts, h, rfl⟩⟩

theorem keyTypes_ok {kvs : List (Value × Value)} {ts : List DataType} (h : typesOfKeys kvs = .ok ts) :
    ∀ q ∈ kvs, ∃ t, fromValue q.1 = .ok t := by
  induction kvs generalizing ts with
  | nil => simp
  | cons q kvs ih =>
    obtain ⟨k, v⟩ := q
    simp only [typesOfKeys, except_bind_ok] at h
    obtain ⟨t, h1, ts', h2, -⟩ := h
    intro q hq
    rcases List.mem_cons.1 hq with rfl | hq
    · exact ⟨t, h1⟩
    · exact ih h2 q hq

theorem Outcome.member {v w : Value} {t : DataType} {xs : List Value} (hm : Outcome codec env thing p m (.ok v))
    (hc : Outcome codec env thing p c (.ok w)) (hg : NoGroups codec m) (ht : fromValue w = .ok t)
    (hx : w.elements = some xs) (hv : v.hashable = true ∨ ∃ k ys, w = .seq k ys)
    (h : Outcome codec env thing p (inText m c) z) :
    ∃ q : Bool, z = .ok (.bool q) ∧ (q = true ↔ ∃ x ∈ xs, pyEq env.utcoffset x v = true) := by
  obtain ⟨q, h1, h2⟩ := in_collection env env.decCtx v w t xs ht hx hv
  exact ⟨q, by rw [hm.contains hc hg h, h1], h2⟩

/-- **C69.** For an array, `(m) in ((a).to_set)` and `(m) in (a)` give the same. -/
theorem in_to_set {v : Value} {k : SeqKind} {xs : List Value} {t : DataType} {r : Value} (htz : TzOk env.utcoffset)
    (hm : Outcome codec env thing p m (.ok v)) (ha : Outcome codec env thing p a (.ok (.seq k xs)))
    (hs : Outcome codec env thing p (attrText a "to_set") (.ok r)) (hgm : NoGroups codec m)
    (hv : v.hashable = true) (hw : (Value.seq k xs).WF env.utcoffset) (ht : fromValue (.seq k xs) = .ok t)
    (hh : ∀ x ∈ xs, x.hashable = true)
    (h : Outcome codec env thing p (inText m (attrText a "to_set")) x) (h' : Outcome codec env thing p (inText m a) y) :
    x = y ∧ ∃ q, x = .ok (.bool q) := by
  obtain ⟨l, hl, hlv⟩ := ha
  obtain ⟨e, he, hev⟩ := hs
  obtain ⟨acts, ho⟩ := he.outcome
  obtain ⟨ys, rfl, hd⟩ := to_set_of_rule hl acts ho thing p _ t xs hlv ht rfl (by simp) (by simp) r hev
  obtain ⟨t', ht'⟩ := (setType_ok (xs := ys)).2 fun y hy => seqType_ok.1 ⟨t, ht⟩ y (hd.from_xs y hy)
  obtain ⟨q, rfl, i⟩ := hm.member ⟨e, he, hev⟩ hgm ht' rfl (.inl hv) h
  obtain ⟨q', rfl, i'⟩ := hm.member ⟨l, hl, hlv⟩ hgm ht rfl (.inl hv) h'
  have hw' := allWF_iff.1 hw.1
  have : q = q' := by
    rw [Bool.eq_iff_iff, i, i']
    constructor
    · rintro ⟨y, hy, e⟩
      exact ⟨y, hd.from_xs y hy, e⟩
    · rintro ⟨x, hx, e⟩
      rcases hd.all_of_xs x hx with h | ⟨y, hy, e'⟩
      · exact ⟨x, h, e⟩
      · have hyx := hd.from_xs y hy
        exact ⟨y, hy, pyEq_trans htz y x v (noDict_of_hashable y x (hw' y hyx) (hh y hyx) e') e' e⟩
  subst this
  exact ⟨rfl, _, rfl⟩

/-- **C69.** For a mapping, `(m) in ((a).keys)` and `(m) in (a)` give the same; the keys are values as the engine has them. -/
theorem in_keys {v : Value} {k : MapKind} {kvs : List (Value × Value)} {t : DataType} {r : Value}
    (hm : Outcome codec env thing p m (.ok v)) (ha : Outcome codec env thing p a (.ok (.map k kvs)))
    (hs : Outcome codec env thing p (attrText a "keys") (.ok r)) (hgm : NoGroups codec m)
    (hv : v.hashable = true) (ht : fromValue (.map k kvs) = .ok t)
    (hn : ∀ q ∈ kvs, coerce env.utcoffset q.1 = q.1)
    (h : Outcome codec env thing p (inText m (attrText a "keys")) x) (h' : Outcome codec env thing p (inText m a) y) :
    x = y ∧ ∃ q, x = .ok (.bool q) := by
  obtain ⟨l, hl, hlv⟩ := ha
  obtain ⟨e, he, hev⟩ := hs
  obtain ⟨acts, ho⟩ := he.outcome
  have hr : r = .tuple (kvs.map Prod.fst) := by
    obtain ⟨-, hk⟩ := members_kinds rfl ht
    simp only [reduceCtorEq, false_and, exists_false, false_or, Value.map.injEq] at hk
    obtain ⟨_, _, tk, tv, -, rfl⟩ := hk
    have hat : "keys" ∈ documentedAttributes (DataType.mapping tk tv true).kind := by
      simp [DataType.kind, documentedAttributes]
    rw [attribute_of_rule hl (by exact ⟨by decide, by decide⟩) (by decide) acts ho env.decCtx thing p _ _ hlv ht hat
      (by simp), (attr_result_eq env env.decCtx ht hat).1] at hev
    rcases hr : resolveAttr env (.map k kvs) "keys" with err | w
    · rw [hr] at hev; cases hev
    · rw [hr] at hev
      obtain ⟨r', h1, rfl⟩ := resolve_ok ht rfl hr
      cases h1
      cases hev
      simp only [newValue, coerce, coerceList_eq_map, List.map_map, localise]
      congr 1
      refine List.map_congr_left fun q hq => ?_
      simp only [Function.comp_apply, hn q hq]
  subst hr
  have hkt : ∀ q ∈ kvs, ∃ t, fromValue q.1 = .ok t := by
    simp only [fromValue, except_bind_ok] at ht
    obtain ⟨ks, h1, -⟩ := ht
    exact keyTypes_ok h1
  obtain ⟨t', ht'⟩ := (seqType_ok (k := .tuple) (xs := kvs.map Prod.fst)).2 fun y hy => by
    obtain ⟨q, hq, rfl⟩ := List.mem_map.1 hy
    exact hkt q hq
  obtain ⟨q, rfl, i⟩ := hm.member ⟨e, he, hev⟩ hgm ht' rfl (.inl hv) h
  obtain ⟨q', rfl, i'⟩ := hm.member ⟨l, hl, hlv⟩ hgm ht rfl (.inl hv) h'
  have : q = q' := by rw [Bool.eq_iff_iff, i, i']
  subst this
  exact ⟨rfl, _, rfl⟩


/-! ### The hypotheses are met -/

/-- two texts as the values of `x` and `y` -/
def twoTexts : Value := dictOf [("x", .str "ab"), ("y", .str "b")]

/-- two sets and a number -/
def twoSets : Value := dictOf [("x", .set [.dec (.ofInt 1), .dec (.ofInt 2)]), ("y", .set [.dec (.ofInt 2), .str "a"]),
  ("z", .dec (.ofInt 2))]

theorem y_word : IsWord ['y'] := ⟨by decide, by decide⟩
theorem z_word : IsWord ['z'] := ⟨by decide, by decide⟩

example (codec : LitCodec) :
    Outcome codec sampleEnv twoTexts Proc.new ['x'] (.ok (.str "ab")) ∧
    Outcome codec sampleEnv twoTexts Proc.new ['y'] (.ok (.str "b")) ∧
    NoGroups codec ['x'] ∧ NoGroups codec ['y'] ∧
    Outcome codec sampleEnv twoTexts Proc.new (binText ['x'] .LT ['y']) (.ok (.bool true)) ∧
    Outcome codec sampleEnv twoTexts Proc.new (binText ['y'] .GT ['x']) (.ok (.bool true)) ∧
    Outcome codec sampleEnv twoTexts Proc.new (binText ['x'] .LE ['y']) (.ok (.bool true)) ∧
    Outcome codec sampleEnv twoTexts Proc.new ("not ".toList ++ par (binText ['y'] .LT ['x'])) (.ok (.bool true)) ∧
    Outcome codec sampleEnv twoTexts Proc.new (binText (binText ['x'] .ADD ['y']) .ADD ['x']) (.ok (.str "abbab")) := by
  have hx : Means codec ['x'] (.sym "x" false) := means_sym x_word
  have hy : Means codec ['y'] (.sym "y" false) := means_sym y_word
  refine ⟨⟨_, ⟨⟨_, hx⟩, [], (rule_of_means hx).trans rfl⟩, by decide +kernel⟩,
    ⟨_, ⟨⟨_, hy⟩, [], (rule_of_means hy).trans rfl⟩, by decide +kernel⟩,
    ⟨_, hx, by simp [Raw.uses]⟩, ⟨_, hy, by simp [Raw.uses]⟩,
    ⟨_, ⟨⟨_, means_bin hx hy .LT (by decide)⟩, [], (rule_of_means (means_bin hx hy .LT (by decide))).trans rfl⟩,
      by decide +kernel⟩,
    ⟨_, ⟨⟨_, means_bin hy hx .GT (by decide)⟩, [], (rule_of_means (means_bin hy hx .GT (by decide))).trans rfl⟩,
      by decide +kernel⟩,
    ⟨_, ⟨⟨_, means_bin hx hy .LE (by decide)⟩, [], (rule_of_means (means_bin hx hy .LE (by decide))).trans rfl⟩,
      by decide +kernel⟩,
    ⟨_, ⟨⟨_, means_not (means_bin hy hx .LT (by decide))⟩, [],
      (rule_of_means (means_not (means_bin hy hx .LT (by decide)))).trans rfl⟩, by decide +kernel⟩,
    ⟨_, ⟨⟨_, means_bin (means_bin hx hy .ADD (by decide)) hx .ADD (by decide)⟩, [],
      (rule_of_means (means_bin (means_bin hx hy .ADD (by decide)) hx .ADD (by decide))).trans rfl⟩, by decide +kernel⟩⟩

example (codec : LitCodec) :
    Outcome codec sampleEnv twoSets Proc.new ['x'] (.ok (.set [.dec (.ofInt 1), .dec (.ofInt 2)])) ∧
    Outcome codec sampleEnv twoSets Proc.new (inText ['z'] (binText ['x'] .BWXOR ['y'])) (.ok (.bool false)) ∧
    Outcome codec sampleEnv twoSets Proc.new (binText (inText ['z'] ['x']) .NE (inText ['z'] ['y'])) (.ok (.bool false)) ∧
    Outcome codec sampleEnv twoSets Proc.new (binText (binText ['x'] .BWOR ['y']) .EQ (binText ['y'] .BWOR ['x']))
      (.ok (.bool true)) := by
  have hx : Means codec ['x'] (.sym "x" false) := means_sym x_word
  have hy : Means codec ['y'] (.sym "y" false) := means_sym y_word
  have hz : Means codec ['z'] (.sym "z" false) := means_sym z_word
  have h1 := means_in hz (means_bin hx hy .BWXOR (by decide))
  have h2 := means_bin (means_in hz hx) (means_in hz hy) .NE (by decide)
  have h3 := means_bin (means_bin hx hy .BWOR (by decide)) (means_bin hy hx .BWOR (by decide)) .EQ (by decide)
  exact ⟨⟨_, ⟨⟨_, hx⟩, [], (rule_of_means hx).trans rfl⟩, by decide +kernel⟩,
    ⟨_, ⟨⟨_, h1⟩, [], (rule_of_means h1).trans rfl⟩, by decide +kernel⟩,
    ⟨_, ⟨⟨_, h2⟩, [], (rule_of_means h2).trans rfl⟩, by decide +kernel⟩,
    ⟨_, ⟨⟨_, h3⟩, [], (rule_of_means h3).trans rfl⟩, by decide +kernel⟩⟩

end RE
