import Verif.Props.Laws
import Verif.Props.Names

/-!
# Which operand types a rule may combine (C59)

The tables of the documentation (docs/source/syntax.rst 24-150, docs/source/attributes.rst 17-140) as specifications,
and theorems that a text made of accepted parts is accepted exactly if the types of the parts stand in the table.  A
part of unknown type counts as a part of any type.
-/

set_option linter.unusedSimpArgs false
set_option linter.unnecessarySeqFocus false

namespace RE

/-! ### The tables -/

/-- *ANY* of the table; BYTES and FUNCTION are no operands of `==`, `!=`, `and`, `or` (finding 11). -/
inductive AnyOperand : DataType → Prop
  | array m n : AnyOperand (.array m n)
  | boolean : AnyOperand .boolean
  | datetime : AnyOperand .datetime
  | timedelta : AnyOperand .timedelta
  | float : AnyOperand .float
  | mapping k v n : AnyOperand (.mapping k v n)
  | null : AnyOperand .null
  | set m n : AnyOperand (.set m n)
  | string : AnyOperand .string

/-- what can be ordered -/
inductive Orderable : DataType → Prop
  | array m n : Orderable (.array m n)
  | boolean : Orderable .boolean
  | datetime : Orderable .datetime
  | timedelta : Orderable .timedelta
  | float : Orderable .float
  | null : Orderable .null
  | string : Orderable .string

/-- `Works op l r t`: the operator takes operands of these types, and its result has type `t`. -/
inductive Works : BinOp → DataType → DataType → DataType → Prop
  | addBytes : Works .add .bytes .bytes .bytes
  | addFloats : Works .add .float .float .float
  | addStrings : Works .add .string .string .string
  | addToDatetime : Works .add .datetime .timedelta .datetime
  | addDatetimeTo : Works .add .timedelta .datetime .datetime
  | addDurations : Works .add .timedelta .timedelta .timedelta
  | subFloats : Works .sub .float .float .float
  | subDatetimes : Works .sub .datetime .datetime .timedelta
  | subFromDatetime : Works .sub .datetime .timedelta .datetime
  | subDurations : Works .sub .timedelta .timedelta .timedelta
  | arith o : Works (.arith o) .float .float .float
  | bitFloats o : Works (.bit o) .float .float .float
  | bitSets o m n m' n' : Works (.bit o) (.set m n) (.set m' n') .anySet
  | shift o : Works (.shift o) .float .float .float
  | logic op l r : op ∈ [BinOp.and, .or, .eq, .ne] → AnyOperand l → AnyOperand r → Works op l r .boolean
  | cmp o l r : Orderable l → DataType.eq l r = true → Works (.cmp o) l r .boolean
  | fuzzy s n l r : l ∈ [DataType.null, .string] → r ∈ [DataType.null, .string] → Works (.fuzzy s n) l r .boolean

/-- a type the part may turn out to have -/
def MayBe (t t' : DataType) : Prop := t = .undefined ∨ t = t'

/-- the operands may turn out to be right -/
def Fits (op : BinOp) (l r : DataType) : Prop := ∃ l' r' t, MayBe l l' ∧ MayBe r r' ∧ Works op l' r' t

/-- What literal operands have to satisfy: those of bitwise operators are natural numbers, patterns are valid. -/
def LiteralsFit (env : Env) (op : BinOp) (l r : Expr) : Prop :=
  match op with
  | .bit _ | .shift _ => ∀ v, l = .lit v .float ∨ r = .lit v .float → isNatural v = .ok true
  | .fuzzy .. => ∀ p t, r = .lit (.str p) t → env.reValid p = true
  | _ => True

/-! ### The checks of the constructors -/

theorem fits_iff (op : BinOp) (l r : DataType) : Fits op l r ↔
    (op.accepts l && op.accepts r) = true ∧
    (l ≠ .undefined → r ≠ .undefined → ∃ t, Works op l r t) := by
  have hu := fun a => (dataType_compat_undefined a).1
  constructor
  · rintro ⟨l', r', t, hl, hr, h⟩
    refine ⟨?_, fun h1 h2 => ?_⟩
    · have key : op.accepts l' = true ∧ op.accepts r' = true := by
        cases h with
        | logic op l r ho hl hr =>
          simp only [List.mem_cons, List.not_mem_nil, or_false] at ho
          have hb : ∀ {t}, AnyOperand t → BinOp.accepts .and t = true := by
            intro t ht
            cases ht <;> simp [BinOp.accepts, BinOp.compatibleTypes, DataType.compat, DataType.eq, hu]
          rcases ho with rfl | rfl | rfl | rfl <;> exact ⟨hb hl, hb hr⟩
        | cmp o p q hl he =>
          have hb : ∀ {t}, Orderable t → BinOp.accepts (.cmp o) t = true := by
            intro t ht
            cases ht <;> simp [BinOp.accepts, BinOp.compatibleTypes, DataType.compat, DataType.eq, hu]
          refine ⟨hb hl, hb ?_⟩
          cases hl <;> cases r' <;> simp only [DataType.eq, Bool.false_eq_true] at he <;> constructor
        | fuzzy s n l r hl hr =>
          simp only [List.mem_cons, List.not_mem_nil, or_false] at hl hr
          rcases hl with rfl | rfl <;> rcases hr with rfl | rfl <;> exact ⟨rfl, rfl⟩
        | bitSets => simp [BinOp.accepts, BinOp.compatibleTypes, DataType.compat, DataType.eq, hu]
        | _ => exact ⟨rfl, rfl⟩
      have hund : op.accepts .undefined = true := rfl
      rcases hl with rfl | rfl <;> rcases hr with rfl | rfl <;> simp [key, hund]
    · rcases hl with rfl | rfl
      · exact absurd rfl h1
      · rcases hr with rfl | rfl
        · exact absurd rfl h2
        · exact ⟨t, h⟩
  · rintro ⟨h, hw⟩
    simp only [Bool.and_eq_true] at h
    by_cases h1 : l = .undefined
    · subst h1
      by_cases h2 : r = .undefined
      · subst h2
        cases op with
        | add => exact ⟨_, _, _, .inl rfl, .inl rfl, .addFloats⟩
        | sub => exact ⟨_, _, _, .inl rfl, .inl rfl, .subFloats⟩
        | arith o => exact ⟨_, _, _, .inl rfl, .inl rfl, .arith o⟩
        | bit o => exact ⟨_, _, _, .inl rfl, .inl rfl, .bitFloats o⟩
        | shift o => exact ⟨_, _, _, .inl rfl, .inl rfl, .shift o⟩
        | cmp o => exact ⟨_, _, _, .inl rfl, .inl rfl, .cmp o .float .float .float rfl⟩
        | fuzzy s n => exact ⟨_, _, _, .inl rfl, .inl rfl, .fuzzy s n .null .null (by simp) (by simp)⟩
        | _ => exact ⟨_, _, _, .inl rfl, .inl rfl, .logic _ .float .float (by simp) .float .float⟩
      · have h := h.2
        cases op with
        | add =>
          cases r <;> simp [BinOp.accepts, BinOp.compatibleTypes, DataType.compat, DataType.eq] at h h2
          · exact ⟨_, _, _, .inl rfl, .inr rfl, .addBytes⟩
          · exact ⟨_, _, _, .inl rfl, .inr rfl, .addDatetimeTo⟩
          · exact ⟨_, _, _, .inl rfl, .inr rfl, .addFloats⟩
          · exact ⟨_, _, _, .inl rfl, .inr rfl, .addStrings⟩
          · exact ⟨_, _, _, .inl rfl, .inr rfl, .addDurations⟩
        | sub =>
          cases r <;> simp [BinOp.accepts, BinOp.compatibleTypes, DataType.compat, DataType.eq] at h h2
          · exact ⟨_, _, _, .inl rfl, .inr rfl, .subDatetimes⟩
          · exact ⟨_, _, _, .inl rfl, .inr rfl, .subFloats⟩
          · exact ⟨_, _, _, .inl rfl, .inr rfl, .subDurations⟩
        | arith o =>
          cases r <;> simp [BinOp.accepts, BinOp.compatibleTypes, DataType.compat, DataType.eq] at h h2
          exact ⟨_, _, _, .inl rfl, .inr rfl, .arith o⟩
        | bit o =>
          cases r <;> simp [BinOp.accepts, BinOp.compatibleTypes, DataType.compat, DataType.eq] at h h2
          · exact ⟨_, _, _, .inl rfl, .inr rfl, .bitFloats o⟩
          · exact ⟨_, _, _, .inl rfl, .inr rfl, .bitSets o .float true _ _⟩
        | shift o =>
          cases r <;> simp [BinOp.accepts, BinOp.compatibleTypes, DataType.compat, DataType.eq] at h h2
          exact ⟨_, _, _, .inl rfl, .inr rfl, .shift o⟩
        | cmp o =>
          have hr : Orderable r := by
            cases r <;> simp [BinOp.accepts, BinOp.compatibleTypes, DataType.compat, DataType.eq] at h h2 <;>
              constructor
          exact ⟨_, _, _, .inl rfl, .inr rfl, .cmp o r r hr (DataType.eq_refl r)⟩
        | fuzzy s n =>
          cases r <;> simp [BinOp.accepts, BinOp.compatibleTypes, DataType.compat, DataType.eq] at h h2
          · exact ⟨_, _, _, .inl rfl, .inr rfl, .fuzzy s n .null _ (by simp) (by simp)⟩
          · exact ⟨_, _, _, .inl rfl, .inr rfl, .fuzzy s n .null _ (by simp) (by simp)⟩
        | _ =>
          have hr : AnyOperand r := by
            cases r <;> simp [BinOp.accepts, BinOp.compatibleTypes, DataType.compat, DataType.eq] at h h2 <;>
              constructor
          exact ⟨_, _, _, .inl rfl, .inr rfl, .logic _ .float _ (by simp) .float hr⟩
    · by_cases h2 : r = .undefined
      · subst h2
        have h := h.1
        cases op with
        | add =>
          cases l <;> simp [BinOp.accepts, BinOp.compatibleTypes, DataType.compat, DataType.eq] at h h1
          · exact ⟨_, _, _, .inr rfl, .inl rfl, .addBytes⟩
          · exact ⟨_, _, _, .inr rfl, .inl rfl, .addToDatetime⟩
          · exact ⟨_, _, _, .inr rfl, .inl rfl, .addFloats⟩
          · exact ⟨_, _, _, .inr rfl, .inl rfl, .addStrings⟩
          · exact ⟨_, _, _, .inr rfl, .inl rfl, .addDurations⟩
        | sub =>
          cases l <;> simp [BinOp.accepts, BinOp.compatibleTypes, DataType.compat, DataType.eq] at h h1
          · exact ⟨_, _, _, .inr rfl, .inl rfl, .subDatetimes⟩
          · exact ⟨_, _, _, .inr rfl, .inl rfl, .subFloats⟩
          · exact ⟨_, _, _, .inr rfl, .inl rfl, .subDurations⟩
        | arith o =>
          cases l <;> simp [BinOp.accepts, BinOp.compatibleTypes, DataType.compat, DataType.eq] at h h1
          exact ⟨_, _, _, .inr rfl, .inl rfl, .arith o⟩
        | bit o =>
          cases l <;> simp [BinOp.accepts, BinOp.compatibleTypes, DataType.compat, DataType.eq] at h h1
          · exact ⟨_, _, _, .inr rfl, .inl rfl, .bitFloats o⟩
          · exact ⟨_, _, _, .inr rfl, .inl rfl, .bitSets o _ _ .float true⟩
        | shift o =>
          cases l <;> simp [BinOp.accepts, BinOp.compatibleTypes, DataType.compat, DataType.eq] at h h1
          exact ⟨_, _, _, .inr rfl, .inl rfl, .shift o⟩
        | cmp o =>
          have hr : Orderable l := by
            cases l <;> simp [BinOp.accepts, BinOp.compatibleTypes, DataType.compat, DataType.eq] at h h1 <;>
              constructor
          exact ⟨_, _, _, .inr rfl, .inl rfl, .cmp o l l hr (DataType.eq_refl l)⟩
        | fuzzy s n =>
          cases l <;> simp [BinOp.accepts, BinOp.compatibleTypes, DataType.compat, DataType.eq] at h h1
          · exact ⟨_, _, _, .inr rfl, .inl rfl, .fuzzy s n _ .null (by simp) (by simp)⟩
          · exact ⟨_, _, _, .inr rfl, .inl rfl, .fuzzy s n _ .null (by simp) (by simp)⟩
        | _ =>
          have hr : AnyOperand l := by
            cases l <;> simp [BinOp.accepts, BinOp.compatibleTypes, DataType.compat, DataType.eq] at h h1 <;>
              constructor
          exact ⟨_, _, _, .inr rfl, .inl rfl, .logic _ _ .float (by simp) hr .float⟩
      · obtain ⟨t, h⟩ := hw h1 h2
        exact ⟨l, r, t, .inr rfl, .inr rfl, h⟩

/-- the checks without those of literals, for operands of known type -/
theorem check_known (env : Env) (op : BinOp) (l r : Expr) (hl : l.rt ≠ .undefined) (hr : r.rt ≠ .undefined) :
    (op.accepts l.rt && op.accepts r.rt) = true → (¬ ∃ t, Works op l.rt r.rt t) → op.check env l r = .error .mismatch := by
  intro ha h
  simp only [Bool.and_eq_true] at ha
  unfold BinOp.check
  simp only [ha.1, ha.2, Bool.and_self, if_true, except_ok_bind]
  generalize l.rt = lt at *
  generalize r.rt = rt at *
  cases op with
  | add =>
    cases lt <;> simp [BinOp.accepts, BinOp.compatibleTypes, DataType.compat, DataType.eq] at ha hl <;>
    cases rt <;> simp [BinOp.accepts, BinOp.compatibleTypes, DataType.compat, DataType.eq] at ha hr <;>
    first
    | exact (h ⟨_, .addBytes⟩).elim
    | exact (h ⟨_, .addFloats⟩).elim
    | exact (h ⟨_, .addStrings⟩).elim
    | exact (h ⟨_, .addToDatetime⟩).elim
    | exact (h ⟨_, .addDatetimeTo⟩).elim
    | exact (h ⟨_, .addDurations⟩).elim
    | rfl
  | sub =>
    cases lt <;> simp [BinOp.accepts, BinOp.compatibleTypes, DataType.compat, DataType.eq] at ha hl <;>
    cases rt <;> simp [BinOp.accepts, BinOp.compatibleTypes, DataType.compat, DataType.eq] at ha hr <;>
    first
    | exact (h ⟨_, .subFloats⟩).elim
    | exact (h ⟨_, .subDatetimes⟩).elim
    | exact (h ⟨_, .subFromDatetime⟩).elim
    | exact (h ⟨_, .subDurations⟩).elim
    | rfl
  | arith o =>
    cases lt <;> simp [BinOp.accepts, BinOp.compatibleTypes, DataType.compat, DataType.eq] at ha hl <;>
    cases rt <;> simp [BinOp.accepts, BinOp.compatibleTypes, DataType.compat, DataType.eq] at ha hr
    exact (h ⟨_, .arith o⟩).elim
  | bit o =>
    cases lt <;> simp [BinOp.accepts, BinOp.compatibleTypes, DataType.compat, DataType.eq] at ha hl <;>
    cases rt <;> simp [BinOp.accepts, BinOp.compatibleTypes, DataType.compat, DataType.eq] at ha hr <;>
    first
    | exact (h ⟨_, .bitFloats o⟩).elim
    | exact (h ⟨_, .bitSets o _ _ _ _⟩).elim
    | (simp only [bothKnown, DataType.eq, DataType.sameClass]; rfl)
  | shift o =>
    cases lt <;> simp [BinOp.accepts, BinOp.compatibleTypes, DataType.compat, DataType.eq] at ha hl <;>
    cases rt <;> simp [BinOp.accepts, BinOp.compatibleTypes, DataType.compat, DataType.eq] at ha hr
    exact (h ⟨_, .shift o⟩).elim
  | cmp o =>
    have hO : Orderable lt := by
      have ha := ha.1
      cases lt <;> simp [BinOp.accepts, BinOp.compatibleTypes, DataType.compat, DataType.eq] at ha hl <;> constructor
    have he : DataType.eq lt rt = false := by
      cases he : DataType.eq lt rt
      · rfl
      · exact (h ⟨_, .cmp o _ _ hO he⟩).elim
    have h1 : DataType.eq lt .undefined = false := by cases lt <;> simp [DataType.eq] at hl ⊢
    have h2 : DataType.eq rt .undefined = false := by cases rt <;> simp [DataType.eq] at hr ⊢
    simp [bothKnown, he, h1, h2]
  | fuzzy s n =>
    have h1 : lt ∈ [DataType.null, .string] := by
      have ha := ha.1
      cases lt <;> simp [BinOp.accepts, BinOp.compatibleTypes, DataType.compat, DataType.eq] at ha hl ⊢
    have h2 : rt ∈ [DataType.null, .string] := by
      have ha := ha.2
      cases rt <;> simp [BinOp.accepts, BinOp.compatibleTypes, DataType.compat, DataType.eq] at ha hr ⊢
    exact (h ⟨_, .fuzzy s n _ _ h1 h2⟩).elim
  | _ =>
    have h1 : AnyOperand lt := by
      have ha := ha.1
      cases lt <;> simp [BinOp.accepts, BinOp.compatibleTypes, DataType.compat, DataType.eq] at ha hl <;> constructor
    have h2 : AnyOperand rt := by
      have ha := ha.2
      cases rt <;> simp [BinOp.accepts, BinOp.compatibleTypes, DataType.compat, DataType.eq] at ha hr <;> constructor
    exact (h ⟨_, .logic _ _ _ (by simp) h1 h2⟩).elim

theorem check_refused (env : Env) (op : BinOp) (l r : Expr) (h : ¬ Fits op l.rt r.rt) :
    op.check env l r = .error .mismatch := by
  rw [fits_iff] at h
  by_cases ha : (op.accepts l.rt && op.accepts r.rt) = true
  · have h' : ¬ (l.rt ≠ .undefined → r.rt ≠ .undefined → ∃ t, Works op l.rt r.rt t) := fun h'' => h ⟨ha, h''⟩
    push Not at h'
    obtain ⟨h1, h2, h3⟩ := h'
    exact check_known env op l r h1 h2 ha (by push Not; exact h3)
  · unfold BinOp.check
    simp only [ha, Bool.false_eq_true, if_false]
    rfl

theorem checkNaturalLit_ok (e : Expr) (h : ∀ v, e = .lit v .float → isNatural v = .ok true) :
    checkNaturalLit e = .ok () := by
  unfold checkNaturalLit
  split
  · simp [assertNatural, h _ rfl, except_ok_bind]
  · rfl

theorem check_accepted (env : Env) (op : BinOp) (l r : Expr) (h : Fits op l.rt r.rt) (hl : LiteralsFit env op l r) :
    op.check env l r = .ok () := by
  rw [fits_iff] at h
  obtain ⟨ha, h⟩ := h
  unfold BinOp.check
  simp only [ha, if_true, except_ok_bind]
  by_cases hk : bothKnown l.rt r.rt = true
  · have h1 : l.rt ≠ .undefined := by rintro hx; simp [bothKnown, hx, DataType.eq] at hk
    have h2 : r.rt ≠ .undefined := by rintro hx; simp [bothKnown, hx, DataType.eq] at hk
    obtain ⟨t, h⟩ := h h1 h2
    generalize hL : l.rt = L at *
    generalize hR : r.rt = R at *
    cases h with
    | bitFloats o | bitSets o | shift o =>
      simp only [DataType.sameClass, Bool.not_true, Bool.and_false, Bool.false_eq_true, if_false, except_ok_bind,
        checkNaturalLit_ok l fun v hv => hl v (.inl hv), checkNaturalLit_ok r fun v hv => hl v (.inr hv)]
    | cmp o l r ho he => simp [he]
    | fuzzy =>
      simp only
      split
      · rw [if_pos (hl _ _ rfl)]
      · rfl
    | logic op l r ho =>
      simp only [List.mem_cons, List.not_mem_nil, or_false] at ho
      rcases ho with rfl | rfl | rfl | rfl <;> rfl
    | _ => simp [DataType.eq]
  · cases op <;> simp only [hk, Bool.false_eq_true, if_false, Bool.false_and, except_ok_bind]
    · rw [checkNaturalLit_ok l fun v hv => hl v (.inl hv), checkNaturalLit_ok r fun v hv => hl v (.inr hv)]; rfl
    · rw [checkNaturalLit_ok l fun v hv => hl v (.inl hv), checkNaturalLit_ok r fun v hv => hl v (.inr hv)]; rfl
    · split
      · rw [if_pos (hl _ _ rfl)]
      · rfl

/-- literals that do not fit are refused as well -/
theorem check_literals (env : Env) (op : BinOp) (l r : Expr) (h : op.check env l r = .ok ()) :
    LiteralsFit env op l r := by
  have nat : ∀ e, checkNaturalLit e = .ok () → ∀ v, e = .lit v .float → isNatural v = .ok true := by
    rintro e he v rfl
    simp only [checkNaturalLit, assertNatural, except_bind_ok] at he
    obtain ⟨b, hb, he⟩ := he
    cases b
    · cases he
    · exact hb
  by_cases ha : (op.accepts l.rt && op.accepts r.rt) = true
  · unfold BinOp.check at h
    simp only [ha, if_true, except_ok_bind] at h
    cases op with
    | bit o | shift o =>
      simp only at h
      split at h
      · cases h
      · simp only [except_ok_bind, except_bind_ok] at h
        obtain ⟨_, h1, h2⟩ := h
        rintro v (hv | hv)
        · exact nat _ h1 v hv
        · exact nat _ h2 v hv
    | fuzzy s n =>
      rintro p t rfl
      simp only at h
      split at h
      · assumption
      · cases h
    | _ => trivial
  · have := check_refused env op l r (fun hf => ha ((fits_iff op _ _).1 hf).1)
    rw [this] at h
    cases h

/-- the type of the result -/
theorem works_rt {op : BinOp} {l r t : DataType} (h : Works op l r t) : op.rt l r = t := by
  cases h with
  | logic op l r ho =>
    simp only [List.mem_cons, List.not_mem_nil, or_false] at ho
    rcases ho with rfl | rfl | rfl | rfl <;> rfl
  | _ => rfl

/-! ### Texts -/

/-- The text is a rule without a comment that has been accepted (after some history of the process), and this is the
rule. -/
def Part (codec : LitCodec) (env : Env) (dct : DecCtx) (t : List Char) (e : Expr) : Prop :=
  (∃ raw, Means codec t raw) ∧
  ∃ acts, ((runTexts codec env acts Proc.new).rule codec env dct (String.ofList t)).1 = .ok e

/-- what becomes of a text, after some history of the process -/
def outcome (codec : LitCodec) (env : Env) (dct : DecCtx) (acts : List TextAct) (t : List Char) : Except Err Expr :=
  ((runTexts codec env acts Proc.new).rule codec env dct (String.ofList t)).1

theorem makes_anywhere {env : Env} {dct : DecCtx} {raw : Raw} {e : Expr} (h : Makes env dct raw e) (s : St)
    (hs : s.scopes = []) : ∃ s', build env dct raw s = (.ok e, s') ∧ s'.scopes = [] := by
  obtain ⟨⟨sc, g, sy, lg⟩, s1, h1, h2⟩ := h
  obtain ⟨sc', g', sy', lg'⟩ := s
  simp only at h1 hs
  subst h1 hs
  obtain ⟨x, sy', l, hx⟩ := construct_framed2 env dct raw []
  simp only [construct] at hx
  rw [hx] at h2
  cases h2
  exact ⟨_, hx _ _ _, rfl⟩

theorem Part.build {codec : LitCodec} {env : Env} {dct : DecCtx} {t : List Char} {e : Expr}
    (h : Part codec env dct t e) : ∃ raw, Means codec t raw ∧
      ∀ s, s.scopes = [] → ∃ s', build env dct raw s = (.ok e, s') ∧ s'.scopes = [] := by
  obtain ⟨⟨raw, hm⟩, acts, h⟩ := h
  exact ⟨raw, hm, makes_anywhere (rule_makes hm h)⟩

theorem outcome_of {codec : LitCodec} {env : Env} {dct : DecCtx} {acts : List TextAct} {t : List Char} {raw : Raw}
    (h : Means codec t raw) : ∃ s, s.scopes = [] ∧ outcome codec env dct acts t = (build env dct raw s).1 := by
  refine ⟨(runTexts codec env acts Proc.new).st, runTexts_scopes codec env acts, ?_⟩
  simp only [outcome, Proc.rule, parseRule]
  rw [h]
  rfl

theorem lift_ok_bind {α β : Type} (a : α) (f : α → M β) (s : St) : (M.lift (.ok a) >>= f) s = f a s :=
  bind_ok' (m := M.lift (.ok a)) rfl

theorem lift_err_bind {α β : Type} (err : Err) (f : α → M β) (s : St) :
    (M.lift (.error err) >>= f) s = (.error err, s) := bind_err' (m := M.lift (.error err)) rfl

/-- **C59.** An operator between two accepted parts: if the types of the parts stand in the table (and literal operands
are natural numbers, valid patterns), the text is accepted, and the type of the result is that of the table; otherwise
it is refused, with EvaluationError if the types are wrong.  (Two constant parts are combined on the spot, so then the
text is accepted only if their combination raises nothing.) -/
theorem operator_types {codec : LitCodec} {env : Env} {dct : DecCtx} {a b : List Char} {l r : Expr}
    (ha : Part codec env dct a l) (hb : Part codec env dct b r) (k : Kind) (hk : k ∈ binaryKinds)
    (acts : List TextAct) :
    let out := outcome codec env dct acts (par a ++ ' ' :: (spelling k ++ ' ' :: par b))
    (Fits (meaning k) l.rt r.rt → LiteralsFit env (meaning k) l r → (l.reduced && r.reduced) = false →
      ∃ e, out = .ok e ∧ ∀ t, Works (meaning k) l.rt r.rt t → e.rt = t) ∧
    (¬ Fits (meaning k) l.rt r.rt → out = .error (.eng .evaluation)) ∧
    (¬ LiteralsFit env (meaning k) l r → ∀ e, out ≠ .ok e) := by
  obtain ⟨ra, hma, hba⟩ := ha.build
  obtain ⟨rb, hmb, hbb⟩ := hb.build
  obtain ⟨s, hs, ho⟩ := outcome_of (env := env) (dct := dct) (acts := acts) (means_bin hma hmb k hk)
  obtain ⟨s1, h1, hs1⟩ := hba s hs
  obtain ⟨s2, h2, hs2⟩ := hbb s1 hs1
  simp only [ho, RE.build]
  rw [bind_ok' h1, bind_ok' h2]
  unfold mkBin
  refine ⟨fun hf hl hc => ?_, fun hf => ?_, fun hl e he => ?_⟩
  · refine ⟨.bin (meaning k) l r, ?_, fun t ht => works_rt ht⟩
    rw [check_accepted env _ l r hf hl, lift_ok_bind]
    simp only [hc, Bool.false_eq_true, if_false]
    rfl
  · rw [check_refused env _ l r hf]
    rfl
  · rcases hc : (meaning k).check env l r with err | u
    · rw [hc] at he; cases he
    · exact hl (check_literals env _ l r hc)

/-! ### Membership -/

/-- `HoldsIn c m`: a container of type `c` may be asked for a member of type `m`. -/
inductive HoldsIn : DataType → DataType → Prop
  | bytes : HoldsIn .bytes .bytes
  | string : HoldsIn .string .string
  | array v n m : HoldsIn (.array v n) m
  | set v n m : HoldsIn (.set v n) m
  | mapping k v n m : HoldsIn (.mapping k v n) m

theorem checkContains_ok {c m : DataType} (h : ∃ c' m', MayBe c c' ∧ MayBe m m' ∧ HoldsIn c' m') :
    checkContains c m = .ok () := by
  obtain ⟨c', m', hc, hm, h⟩ := h
  rcases hc with rfl | rfl
  · rfl
  · cases h with
    | bytes | string => rcases hm with rfl | rfl <;> rfl
    | _ => rfl

theorem checkContains_error {c m : DataType} (h : ¬ ∃ c' m', MayBe c c' ∧ MayBe m m' ∧ HoldsIn c' m') :
    checkContains c m = .error .mismatch := by
  unfold checkContains
  cases c <;> simp only [DataType.eq, Bool.false_or, Bool.or_false, Bool.or_self, Bool.true_or, Bool.or_true,
    if_true, if_false, Bool.false_eq_true, DataType.isScalar, Bool.not_false, Bool.not_true, Bool.and_true, Bool.true_and,
    Bool.and_false, Bool.false_and]
  case array v n => exact (h ⟨_, m, .inr rfl, .inr rfl, .array v n m⟩).elim
  case set v n => exact (h ⟨_, m, .inr rfl, .inr rfl, .set v n m⟩).elim
  case mapping k v n => exact (h ⟨_, m, .inr rfl, .inr rfl, .mapping k v n m⟩).elim
  case undefined => exact (h ⟨.bytes, .bytes, .inl rfl, by
    by_cases hm : m = .undefined
    · exact .inl hm
    · exact (h ⟨_, m, .inl rfl, .inr rfl, .array .float true m⟩).elim, .bytes⟩).elim
  case bytes =>
    cases m <;> simp only [DataType.eq, Bool.not_false, Bool.not_true, Bool.and_true, Bool.true_and, Bool.and_false,
      Bool.false_and, if_true, if_false, Bool.false_eq_true]
    · exact (h ⟨_, _, .inr rfl, .inr rfl, .bytes⟩).elim
    · exact (h ⟨_, _, .inr rfl, .inl rfl, .bytes⟩).elim
  case string =>
    cases m <;> simp only [DataType.eq, Bool.not_false, Bool.not_true, Bool.and_true, Bool.true_and, Bool.and_false,
      Bool.false_and, if_true, if_false, Bool.false_eq_true]
    · exact (h ⟨_, _, .inr rfl, .inr rfl, .string⟩).elim
    · exact (h ⟨_, _, .inr rfl, .inl rfl, .string⟩).elim

/-- **C59.** `(a) in (b)` is accepted, as a BOOLEAN, if `b` is a STRING or BYTES and `a` the same, or `b` any collection
(types that are not known count as right); otherwise it is refused with EvaluationError. -/
theorem membership_types {codec : LitCodec} {env : Env} {dct : DecCtx} {a b : List Char} {m c : Expr}
    (ha : Part codec env dct a m) (hb : Part codec env dct b c) (acts : List TextAct) :
    let out := outcome codec env dct acts (par a ++ " in ".toList ++ par b)
    ((∃ c' m', MayBe c.rt c' ∧ MayBe m.rt m' ∧ HoldsIn c' m') → (c.reduced && m.reduced) = false →
      ∃ e, out = .ok e ∧ e.rt = .boolean) ∧
    ((¬ ∃ c' m', MayBe c.rt c' ∧ MayBe m.rt m' ∧ HoldsIn c' m') → out = .error (.eng .evaluation)) := by
  obtain ⟨ra, hma, hba⟩ := ha.build
  obtain ⟨rb, hmb, hbb⟩ := hb.build
  obtain ⟨s, hs, ho⟩ := outcome_of (env := env) (dct := dct) (acts := acts) (means_in hma hmb)
  obtain ⟨s1, h1, hs1⟩ := hbb s hs
  obtain ⟨s2, h2, hs2⟩ := hba s1 hs1
  simp only [ho, RE.build]
  rw [bind_ok' h1, bind_ok' h2]
  unfold mkContains
  refine ⟨fun hf hc => ⟨.contains c m, ?_, rfl⟩, fun hf => ?_⟩
  · rw [checkContains_ok hf, lift_ok_bind]
    simp only [hc, Bool.false_eq_true, if_false]
    rfl
  · rw [checkContains_error hf]
    rfl

/-! ### Items and slices -/

/-- `HasItem safe c i t`: an item of type `i` may be looked up in a container of type `c`, the result has type `t`. -/
inductive HasItem (safe : Bool) : DataType → DataType → DataType → Prop
  | bytes : HasItem safe .bytes .float .float
  | string : HasItem safe .string .float .string
  | array v n : HasItem safe (.array v n) .float v
  | mapping k v n i : DataType.compat i k = true → HasItem safe (.mapping k v n) i v
  | missing k v n i : safe = true → DataType.compat i k = false → HasItem safe (.mapping k v n) i .null
  | null i : safe = true → HasItem safe .null i .undefined

/-- an item that may turn out to be right -/
def ItemFits (safe : Bool) (c i : DataType) : Prop := ∃ c' i' t, MayBe c c' ∧ MayBe i i' ∧ HasItem safe c' i' t

theorem checkItem_ok {c i : DataType} {safe : Bool} (h : ItemFits safe c i) : checkItem c i safe = .ok () := by
  obtain ⟨c', i', t, hc, hi, h⟩ := h
  rcases hc with rfl | rfl
  · rfl
  · cases h with
    | mapping k v n i hk =>
      rcases hi with rfl | rfl
      · simp [checkItem, DataType.compat]
      · simp [checkItem, hk]
    | missing k v n i hs _ => simp [checkItem, hs]
    | null i hs => simp [checkItem, hs]
    | _ => rcases hi with rfl | rfl <;> rfl

theorem checkItem_error {c i : DataType} {safe : Bool} (h : ¬ ItemFits safe c i) :
    checkItem c i safe = .error (if c.isMapping then .eng .lookup else .eng .evaluation) := by
  have notFloat : (∀ i' t, MayBe i i' → ¬ HasItem safe c i' t) → (∃ t, HasItem safe c .float t) →
      DataType.compat i .float = false := by
    rintro h1 ⟨t, h2⟩
    cases hf : DataType.compat i .float with
    | false => rfl
    | true =>
      refine absurd h2 (h1 .float t ?_)
      cases i <;> simp [DataType.compat] at hf
      · exact .inr rfl
      · exact .inl rfl
  have h1 : ∀ i' t, MayBe i i' → ¬ HasItem safe c i' t := fun i' t hi ht => h ⟨c, i', t, .inr rfl, hi, ht⟩
  cases c <;> simp only [checkItem, DataType.isMapping, Bool.false_eq_true, if_false, if_true]
  case array v n => rw [notFloat h1 ⟨_, .array v n⟩]; rfl
  case bytes => rw [notFloat h1 ⟨_, .bytes⟩]; rfl
  case string => rw [notFloat h1 ⟨_, .string⟩]; rfl
  case mapping k v n =>
    cases hk : DataType.compat i k with
    | true => exact (h1 i v (.inr rfl) (.mapping k v n i hk)).elim
    | false =>
      cases hs : safe with
      | true => exact (h1 i .null (.inr rfl) (.missing k v n i hs hk)).elim
      | false => rfl
  case null =>
    cases hs : safe with
    | true => exact (h1 i .undefined (.inr rfl) (.null i hs)).elim
    | false => rfl
  case undefined =>
    by_cases hi : i = .undefined
    · exact (h ⟨.bytes, .float, _, .inl rfl, .inl hi, .bytes⟩).elim
    · exact (h ⟨.mapping i .float true, i, _, .inl rfl, .inr rfl,
        .mapping i .float true i (dataType_compat_refl i)⟩).elim

/-- **C59.** `(a)[b]` and `(a)&[b]`: accepted with the type of the table if the types stand in it; otherwise refused,
with LookupError for the keys of a mapping, with EvaluationError else. -/
theorem item_types {codec : LitCodec} {env : Env} {dct : DecCtx} {a b : List Char} {c i : Expr}
    (ha : Part codec env dct a c) (hb : Part codec env dct b i) (safe : Bool) (acts : List TextAct) :
    let out := outcome codec env dct acts (par a ++ ((if safe then "&[" else "[").toList ++ (b ++ [']'])))
    (ItemFits safe c.rt i.rt → (c.reduced && i.reduced) = false →
      ∃ e, out = .ok e ∧ ∀ t, HasItem safe c.rt i.rt t → e.rt = t) ∧
    (¬ ItemFits safe c.rt i.rt → out = .error (if c.rt.isMapping then .eng .lookup else .eng .evaluation)) := by
  obtain ⟨ra, hma, hba⟩ := ha.build
  obtain ⟨rb, hmb, hbb⟩ := hb.build
  obtain ⟨s, hs, ho⟩ := outcome_of (env := env) (dct := dct) (acts := acts) (means_item hma hmb safe)
  obtain ⟨s1, h1, hs1⟩ := hba s hs
  obtain ⟨s2, h2, hs2⟩ := hbb s1 hs1
  simp only [ho, RE.build]
  rw [bind_ok' h1, bind_ok' h2]
  unfold mkGetItem
  refine ⟨fun hf hc => ?_, fun hf => ?_⟩
  · rw [checkItem_ok hf, lift_ok_bind, M.ite_app]
    by_cases hm : staticMiss c.rt i.rt safe = true
    · rw [if_pos hm]
      refine ⟨_, rfl, fun t ht => ?_⟩
      generalize c.rt = ct at ht hm
      generalize i.rt = it at ht hm
      cases ht with
      | mapping k v n i' hk => simp [staticMiss, hk] at hm
      | missing => rfl
      | _ => simp [staticMiss] at hm
    · rw [if_neg hm]
      simp only [hc, Bool.false_eq_true, if_false]
      refine ⟨.getItem c i safe, rfl, fun t ht => ?_⟩
      simp only [Expr.rt]
      generalize c.rt = ct at ht hm
      generalize i.rt = it at ht hm
      cases ht with
      | missing k v n i' hs hk => simp [staticMiss, hs, hk] at hm
      | _ => rfl
  · rw [checkItem_error hf]
    rfl

/-- `SliceOf safe c t`: a container of type `c` may be sliced, the result has type `t`. -/
inductive SliceOf (safe : Bool) : DataType → DataType → Prop
  | bytes : SliceOf safe .bytes .bytes
  | string : SliceOf safe .string .string
  | array v n : SliceOf safe (.array v n) (.array v n)
  | null : safe = true → SliceOf safe .null .undefined

/-- **C59.** `(a)[b:c]` and `(a)&[b:c]`. -/
theorem slice_types {codec : LitCodec} {env : Env} {dct : DecCtx} {a b c : List Char} {o i j : Expr}
    (ha : Part codec env dct a o) (hb : Part codec env dct b i) (hc : Part codec env dct c j) (safe : Bool)
    (acts : List TextAct) :
    let out := outcome codec env dct acts
      (par a ++ ((if safe then "&[" else "[").toList ++ (b ++ (':' :: (c ++ [']'])))))
    ((o.rt = .undefined ∨ ∃ t, SliceOf safe o.rt t) → (o.reduced && i.reduced && j.reduced) = false →
      ∃ e, out = .ok e ∧ ∀ t, SliceOf safe o.rt t → e.rt = t) ∧
    (¬ (o.rt = .undefined ∨ ∃ t, SliceOf safe o.rt t) → out = .error (.eng .evaluation)) := by
  obtain ⟨ra, hma, hba⟩ := ha.build
  obtain ⟨rb, hmb, hbb⟩ := hb.build
  obtain ⟨rc, hmc, hbc⟩ := hc.build
  obtain ⟨s, hs, ho⟩ := outcome_of (env := env) (dct := dct) (acts := acts) (means_slice hma hmb hmc safe)
  obtain ⟨s1, h1, hs1⟩ := hbb s hs
  obtain ⟨s2, h2, hs2⟩ := hbc s1 hs1
  obtain ⟨s3, h3, hs3⟩ := hba s2 hs2
  simp only [ho, RE.build]
  rw [bind_ok' h1, bind_ok' h2, bind_ok' h3]
  unfold mkGetSlice
  refine ⟨fun hf hr => ?_, fun hf => ?_⟩
  · have hk : checkSlice o.rt safe = .ok () := by
      rcases hf with hf | ⟨t, hf⟩
      · rw [hf]; rfl
      · generalize o.rt = ot at hf
        cases hf with
        | null h => simp [checkSlice, h]
        | _ => rfl
    rw [hk, lift_ok_bind]
    simp only [hr, Bool.false_eq_true, if_false]
    refine ⟨.getSlice o i j safe, rfl, fun t ht => ?_⟩
    simp only [Expr.rt]
    generalize o.rt = ot at ht
    cases ht <;> rfl
  · have hk : checkSlice o.rt safe = .error .mismatch := by
      generalize o.rt = ot at hf
      cases ot <;> first
        | rfl
        | exact (hf (.inl rfl)).elim
        | exact (hf (.inr ⟨_, .bytes⟩)).elim
        | exact (hf (.inr ⟨_, .string⟩)).elim
        | exact (hf (.inr ⟨_, .array _ _⟩)).elim
        | (cases hs : safe
           · rfl
           · exact (hf (.inr ⟨_, .null hs⟩)).elim)
    rw [hk]
    rfl

/-! ### Attributes -/

/-- the type of a method -/
def methodType (name : String) (arg ret : DataType) : DataType := .function name ret (some [arg]) (some 1)

/-- the type of the members -/
def membersOf : DataType → DataType
  | .array v _ | .set v _ => v
  | .string => .string
  | .bytes => .float
  | _ => .undefined

/-- The attributes of a type and their types (docs/source/attributes.rst 17-140; `to_int` of FLOAT is not documented). -/
def attrTable (t : DataType) : List (String × DataType) :=
  match t with
  | .array .. =>
    [("ends_with", methodType "ends_with" t .boolean), ("is_empty", .boolean), ("length", .float),
     ("starts_with", methodType "starts_with" t .boolean), ("to_ary", .array (membersOf t) true),
     ("to_set", .set (membersOf t) true)]
  | .bytes =>
    [("ends_with", methodType "ends_with" t .boolean), ("is_empty", .boolean), ("length", .float),
     ("starts_with", methodType "starts_with" t .boolean), ("to_ary", .array (membersOf t) true),
     ("to_set", .set (membersOf t) true), ("decode", methodType "decode" .string .string)]
  | .datetime =>
    [("date", .datetime), ("day", .float), ("hour", .float), ("microsecond", .float), ("millisecond", .float),
     ("minute", .float), ("month", .float), ("second", .float), ("to_epoch", .float), ("weekday", .string),
     ("year", .float), ("zone_name", .string)]
  | .float =>
    [("ceiling", .float), ("floor", .float), ("is_nan", .boolean), ("to_flt", .float), ("to_str", .string),
     ("to_int", .float)]
  | .mapping .. => [("is_empty", .boolean), ("keys", .anyArray), ("length", .float), ("values", .anyArray)]
  | .set .. =>
    [("is_empty", .boolean), ("length", .float), ("to_ary", .array (membersOf t) true),
     ("to_set", .set (membersOf t) true)]
  | .string =>
    [("as_lower", .string), ("as_upper", .string), ("encode", methodType "encode" .string .bytes),
     ("ends_with", methodType "ends_with" t .boolean), ("to_ary", .array (membersOf t) true), ("to_flt", .float),
     ("to_set", .set (membersOf t) true), ("to_str", .string), ("to_int", .float), ("is_empty", .boolean),
     ("length", .float), ("starts_with", methodType "starts_with" t .boolean)]
  | .timedelta => [("days", .float), ("seconds", .float), ("microseconds", .float), ("total_seconds", .float)]
  | _ => []

theorem lookup_none {β : Type} {name : String} : ∀ {l : List (String × β)}, (∀ p ∈ l, ¬ name = p.1) →
    l.lookup name = none
  | [], _ => rfl
  | (k, v) :: l, h => by
    have h1 : (name == k) = false := by simpa using h (k, v) (by simp)
    rw [List.lookup_cons, h1]
    exact lookup_none fun p hp => h p (by simp [hp])

theorem resolveAttrType_eq (t : DataType) (name : String) (ht : t ≠ .undefined) :
    resolveAttrType t name =
      match (attrTable t).lookup name with
      | some u => .ok u
      | none => .error (.eng (.attributeResolution name)) := by
  cases t <;> simp only [resolveAttrType, attrKind, attrTypeFn, attrTable, ne_eq, not_true_eq_false] at ht ⊢
  case boolean | null | function => rfl
  all_goals
    split
    all_goals first
      | (rename_i h; split at h <;> first
          | (cases h; done)
          | (rw [lookup_none]
             simp only [List.mem_cons, List.not_mem_nil, or_false, forall_eq_or_imp, forall_eq]
             repeat' apply And.intro
             all_goals assumption)
          | (cases h; rfl))

theorem lookup_of_mem {β : Type} {name : String} {v : β} : ∀ {l : List (String × β)}, (l.map (·.1)).Nodup →
    ((name, v) ∈ l ↔ l.lookup name = some v)
  | [], _ => by simp
  | (k, w) :: l, h => by
    simp only [List.map_cons, List.nodup_cons, List.mem_map] at h
    rw [List.lookup_cons]
    by_cases hk : name = k
    · subst hk
      simp only [beq_self_eq_true, List.mem_cons, Prod.mk.injEq, true_and, Option.some.injEq]
      constructor
      · rintro (rfl | hm)
        · rfl
        · exact absurd ⟨_, hm, rfl⟩ h.1
      · rintro rfl; exact .inl rfl
    · rw [show (name == k) = false by simpa using hk]
      simp only [List.mem_cons, Prod.mk.injEq, hk, false_and, false_or]
      exact lookup_of_mem h.2

theorem attrTable_nodup (t : DataType) : ((attrTable t).map (·.1)).Nodup := by
  cases t <;> simp [attrTable]

/-- **C59.** `(a).n` and `(a)&.n`: accepted if the type of `a` has an attribute `n`, which is then the type of the
result, or is a MAPPING (whose keys count as attributes), or NULL with `&.`, or not known; otherwise refused with
AttributeResolutionError. -/
theorem attribute_types {codec : LitCodec} {env : Env} {dct : DecCtx} {a n : List Char} {o : Expr}
    (ha : Part codec env dct a o) (hn : IsWord n) (hd : n.head? ≠ some '$') (safe : Bool) (acts : List TextAct) :
    let out := outcome codec env dct acts (par a ++ ((if safe then "&." else ".").toList ++ n))
    let allowed := o.rt = .undefined ∨ (o.rt = .null ∧ safe = true) ∨ (∃ k v b, o.rt = .mapping k v b) ∨
      ∃ u, (String.ofList n, u) ∈ attrTable o.rt
    (allowed → o.reduced = false →
      ∃ e, out = .ok e ∧ ∀ u, (String.ofList n, u) ∈ attrTable o.rt → e.rt = u) ∧
    (¬ allowed → out = .error (.eng (.attributeResolution (String.ofList n)))) := by
  obtain ⟨ra, hma, hba⟩ := ha.build
  obtain ⟨s, hs, ho⟩ := outcome_of (env := env) (dct := dct) (acts := acts) (means_attr hma hn hd safe)
  obtain ⟨s1, h1, hs1⟩ := hba s hs
  simp only [ho, RE.build]
  rw [bind_ok' h1]
  unfold mkGetAttr
  generalize String.ofList n = n
  simp only [lookup_of_mem (attrTable_nodup _)]
  have hund : ∀ t, DataType.eq t .undefined = true ↔ t = .undefined := by intro t; cases t <;> simp [DataType.eq]
  have hnull : ∀ t, DataType.eq t .null = true ↔ t = .null := by intro t; cases t <;> simp [DataType.eq]
  refine ⟨fun hf hr => ?_, fun hf => ?_⟩
  · have hk : checkAttr o.rt n safe = .ok () := by
      unfold checkAttr
      by_cases h0 : o.rt = .undefined
      · rw [if_pos ((hund _).2 h0)]
      · rw [if_neg (fun h => h0 ((hund _).1 h)), resolveAttrType_eq _ _ h0]
        rcases hf with h | ⟨h, h'⟩ | ⟨k, v, b, h⟩ | ⟨u, h⟩
        · exact absurd h h0
        · simp [h, h', DataType.eq]
        · rw [h]
          simp only [DataType.eq, DataType.isMapping, Bool.false_and, Bool.false_eq_true, if_false, if_true]
          split
          · rfl
          · rfl
        · rw [h]; simp
    rw [hk, lift_ok_bind, M.ite_app]
    simp only [hr, Bool.false_eq_true, if_false]
    refine ⟨.getAttr o n safe, rfl, fun u hu => ?_⟩
    simp only [Expr.rt, attrNodeType]
    have h0 : o.rt ≠ .undefined := by intro h; rw [h] at hu; simp [attrTable] at hu
    have h1 : o.rt ≠ .null := by intro h; rw [h] at hu; simp [attrTable] at hu
    rw [if_neg (fun h => h0 ((hund _).1 h)), if_neg (by
      simp only [Bool.and_eq_true, not_and]; intro h; exact absurd ((hnull _).1 h) h1), resolveAttrType_eq _ _ h0, hu]
  · push Not at hf
    obtain ⟨h0, h1, h2, h3⟩ := hf
    have hk : checkAttr o.rt n safe = .error (.eng (.attributeResolution n)) := by
      unfold checkAttr
      rw [if_neg (fun h => h0 ((hund _).1 h)), if_neg (by
        simp only [Bool.and_eq_true, not_and]; intro h; exact h1 ((hnull _).1 h)), resolveAttrType_eq _ _ h0]
      have hl : (attrTable o.rt).lookup n = none := by
        cases hx : (attrTable o.rt).lookup n with
        | none => rfl
        | some u => exact absurd hx (h3 u)
      have hm : o.rt.isMapping = false := by
        generalize o.rt = t at h2
        cases t <;> first | rfl | exact absurd rfl (h2 _ _ _)
      simp [hl, hm]
    rw [hk]
    rfl

/-! ### Comprehensions, calls, `not`, `-`, conditionals -/

/-- `Members t u`: the members of a collection of type `t` have type `u`; those of a mapping are its keys. -/
inductive Members : DataType → DataType → Prop
  | array v n : Members (.array v n) v
  | set v n : Members (.set v n) v
  | mapping k v n : Members (.mapping k v n) k

/-- **C59.** `[x for x in b]` is accepted as an array of the members of `b` if `b` is a collection (or its type is not
known), and refused with EvaluationError otherwise.  No comprehension over anything else is accepted. -/
theorem comprehension_types {codec : LitCodec} {env : Env} {dct : DecCtx} {x b : List Char} {c : Expr} (hx : IsWord x)
    (hd : x.head? ≠ some '$') (hb : Part codec env dct b c) (acts : List TextAct) :
    let out := outcome codec env dct acts ('[' :: (x ++ (" for ".toList ++ (x ++ (" in ".toList ++ (b ++ [']']))))))
    (c.rt = .undefined → ∃ e, out = .ok e ∧ e.rt = .array .undefined true) ∧
    (∀ u, Members c.rt u → ∃ e, out = .ok e ∧ e.rt = .array u true) ∧
    (¬ (c.rt = .undefined ∨ ∃ u, Members c.rt u) →
      ∀ (a : List Char) (ra : Raw), Means codec a ra →
        outcome codec env dct acts ('[' :: (a ++ (" for ".toList ++ (x ++ (" in ".toList ++ (b ++ [']'])))))) =
          .error (.eng .evaluation)) := by
  obtain ⟨rb, hmb, hbb⟩ := hb.build
  have hsym : Means codec x (.sym (String.ofList x) false) := by
    have := means_sym (codec := codec) hx
    rwa [show symRaw x = .sym (String.ofList x) false from by
      unfold symRaw; cases x with
      | nil => rfl
      | cons c cs => simp only [List.head?_cons, ne_eq, Option.some.injEq] at hd; split <;> simp_all] at this
  have key : ∀ u, iterVarType c.rt = .ok u →
      ∃ e, outcome codec env dct acts ('[' :: (x ++ (" for ".toList ++ (x ++ (" in ".toList ++ (b ++ [']'])))))) = .ok e ∧
        e.rt = .array u true := by
    intro u hu
    obtain ⟨s, hs, ho⟩ := outcome_of (env := env) (dct := dct) (acts := acts) (means_comp hsym hmb hx)
    obtain ⟨s1, h1, hs1⟩ := hbb s hs
    rw [ho]
    simp only [RE.build]
    rw [bind_ok' h1, hu, lift_ok_bind]
    refine ⟨.comp (.sym (String.ofList x) u false) (String.ofList x) c (.lit (.bool true) .boolean), ?_, rfl⟩
    obtain ⟨sc, g, sy, lg⟩ := s1
    simp only at hs1
    subst hs1
    simp only [M.bind_apply, M.withScope, RE.build, M.lift_apply, fromValue, except_ok_bind, mkSym, M.modify,
      ctxResolveType, scopeLookup, List.nil_append, List.find?_cons, beq_self_eq_true, Bool.false_eq_true, if_false,
      M.pure_apply]
  refine ⟨fun h => key _ (by rw [h]; rfl), fun u hu => key u (by generalize c.rt = t at hu; cases hu <;> rfl), ?_⟩
  intro hf a ra hma
  obtain ⟨s, hs, ho⟩ := outcome_of (env := env) (dct := dct) (acts := acts) (means_comp hma hmb hx)
  obtain ⟨s1, h1, hs1⟩ := hbb s hs
  rw [ho]
  simp only [RE.build]
  have hk : iterVarType c.rt = .error .mismatch := by
    generalize c.rt = t at hf
    cases t <;> first
      | rfl
      | exact (hf (.inl rfl)).elim
      | exact (hf (.inr ⟨_, .array _ _⟩)).elim
      | exact (hf (.inr ⟨_, .set _ _⟩)).elim
      | exact (hf (.inr ⟨_, .mapping _ _ _⟩)).elim
  rw [bind_ok' h1, hk]
  rfl

/-- Specification: may a function of type `ft` be called with arguments of these types?  At least the declared minimum
and at most the declared number of arguments, each of a type compatible with the declared one. -/
def TypesAllowed (ft : DataType) (args : List DataType) : Prop :=
  ∃ name ret ats min, ft = .function name ret ats min ∧
    (∀ m, min = some m → m ≤ args.length) ∧
    (∀ ts, ats = some ts → args.length ≤ ts.length ∧
      ∀ (i : Nat) (t u : DataType), args[i]? = some t → ts[i]? = some u → DataType.compat t u = true)

theorem zip_all_iff : ∀ (as ts : List DataType), (as.zip ts).all (fun p => DataType.compat p.1 p.2) = true ↔
    ∀ (i : Nat) (t u : DataType), as[i]? = some t → ts[i]? = some u → DataType.compat t u = true
  | [], ts => by simp
  | _ :: _, [] => by simp
  | a :: as, t :: ts => by
    simp only [List.zip_cons_cons, List.all_cons, Bool.and_eq_true, zip_all_iff as ts]
    constructor
    · rintro ⟨h, h'⟩ i t' u ht hu
      cases i with
      | zero =>
        simp only [List.getElem?_cons_zero, Option.some.injEq] at ht hu
        subst ht hu
        exact h
      | succ i => exact h' i t' u (by simpa using ht) (by simpa using hu)
    · intro h
      exact ⟨h 0 a t rfl rfl, fun i t' u ht hu => h (i + 1) t' u (by simpa using ht) (by simpa using hu)⟩

/-- how a call is refused: EvaluationError if there is no function to call -/
def callRefusal : DataType → Err
  | .function .. => .eng .functionCall
  | _ => .eng .evaluation

theorem validateCall_cases (ft : DataType) (args : List DataType) :
    validateCall ft args = .ok () ∧ TypesAllowed ft args ∨
    validateCall ft args = .error (callRefusal ft) ∧
      ¬ TypesAllowed ft args := by
  cases ft with
  | function name ret ats min =>
    have hT : TypesAllowed (.function name ret ats min) args ↔ (∀ m, min = some m → m ≤ args.length) ∧
        (∀ ts, ats = some ts → args.length ≤ ts.length ∧ (args.zip ts).all (fun p => DataType.compat p.1 p.2) = true) := by
      simp only [TypesAllowed, DataType.function.injEq, zip_all_iff]
      constructor
      · rintro ⟨n, r, a, m, ⟨rfl, rfl, rfl, rfl⟩, h1, h2⟩
        exact ⟨h1, h2⟩
      · rintro ⟨h1, h2⟩
        exact ⟨_, _, _, _, ⟨rfl, rfl, rfl, rfl⟩, h1, h2⟩
    rw [hT]
    have rest : (validateCall (.function name ret ats none) args = .ok () ∧
          (∀ ts, ats = some ts → args.length ≤ ts.length ∧
            (args.zip ts).all (fun p => DataType.compat p.1 p.2) = true)) ∨
        (validateCall (.function name ret ats none) args = .error (.eng .functionCall) ∧
          ¬ (∀ ts, ats = some ts → args.length ≤ ts.length ∧
            (args.zip ts).all (fun p => DataType.compat p.1 p.2) = true)) := by
      cases ats with
      | none => exact .inl ⟨rfl, by simp⟩
      | some ts =>
        simp only [validateCall, Bool.false_eq_true, if_false, Option.some.injEq, forall_eq']
        by_cases hl : args.length > ts.length
        · rw [if_pos hl]; exact .inr ⟨rfl, fun h => by omega⟩
        · rw [if_neg hl]
          by_cases hz : (args.zip ts).all (fun p => DataType.compat p.1 p.2) = true
          · rw [if_pos hz]; exact .inl ⟨rfl, by omega, hz⟩
          · rw [if_neg hz]; exact .inr ⟨rfl, fun h => hz h.2⟩
    cases min with
    | none => simpa [callRefusal] using rest
    | some m =>
      by_cases hm : args.length < m
      · refine .inr ⟨?_, fun h => by have := h.1 m rfl; omega⟩
        simp only [validateCall, hm, decide_true, if_true]
        rfl
      · have he : validateCall (.function name ret ats (some m)) args = validateCall (.function name ret ats none) args := by
          simp only [validateCall, hm, decide_false, Bool.false_eq_true, if_false]
        rw [he]
        rcases rest with ⟨h1, h2⟩ | ⟨h1, h2⟩
        · refine .inl ⟨h1, fun m' h => ?_, h2⟩
          cases h; omega
        · exact .inr ⟨h1, fun h => h2 h.2⟩
  | _ => exact .inr ⟨rfl, by rintro ⟨_, _, _, _, h, _⟩; cases h⟩

theorem validateCall_iff (ft : DataType) (args : List DataType) :
    validateCall ft args = .ok () ↔ TypesAllowed ft args := by
  rcases validateCall_cases ft args with ⟨h, h'⟩ | ⟨h, h'⟩ <;> simp [h, h']

theorem validateCall_error (ft : DataType) (args : List DataType) (h : ¬ TypesAllowed ft args) :
    validateCall ft args = .error (callRefusal ft) := by
  rcases validateCall_cases ft args with ⟨_, h'⟩ | ⟨h', _⟩
  · exact absurd h' h
  · exact h'

theorem parts_build {codec : LitCodec} {env : Env} {dct : DecCtx} : ∀ {ts : List (List Char)} {es : List Expr},
    List.Forall₂ (Part codec env dct) ts es → ∃ rs, List.Forall₂ (Means codec) ts rs ∧
      ∀ s, s.scopes = [] → ∃ s', buildList env dct rs s = (.ok es, s') ∧ s'.scopes = []
  | _, _, .nil => ⟨[], .nil, fun s hs => ⟨s, rfl, hs⟩⟩
  | _, _, .cons h hs => by
    obtain ⟨r, hr, hb⟩ := h.build
    obtain ⟨rs, hrs, hbs⟩ := parts_build hs
    refine ⟨r :: rs, .cons hr hrs, fun s h0 => ?_⟩
    obtain ⟨s1, h1, h2⟩ := hb s h0
    obtain ⟨s2, h3, h4⟩ := hbs s1 h2
    refine ⟨s2, ?_, h4⟩
    simp only [buildList]
    rw [bind_ok' h1, bind_ok' h3]
    rfl

/-- **C59.** `(f)(a, …)`: accepted, with the declared result type, if the type of `f` is a FUNCTION and the arguments
fit its declaration, or is not known; otherwise refused, with EvaluationError if it is no FUNCTION, with
FunctionCallError if it is one. -/
theorem call_types {codec : LitCodec} {env : Env} {dct : DecCtx} {f : List Char} {fe : Expr} {ts : List (List Char)}
    {es : List Expr} (hf : Part codec env dct f fe) (hargs : List.Forall₂ (Part codec env dct) ts es)
    (acts : List TextAct) :
    let out := outcome codec env dct acts (par f ++ par (commas ts))
    (fe.rt = .undefined ∨ TypesAllowed fe.rt (es.map Expr.rt) → (fe.reduced && Expr.reducedList es) = false →
      ∃ e, out = .ok e ∧ ∀ n r a m, fe.rt = .function n r a m → e.rt = r) ∧
    (fe.rt ≠ .undefined → ¬ TypesAllowed fe.rt (es.map Expr.rt) →
      out = .error (callRefusal fe.rt)) := by
  obtain ⟨rf, hmf, hbf⟩ := hf.build
  obtain ⟨rs, hms, hbs⟩ := parts_build hargs
  obtain ⟨s, hs, ho⟩ := outcome_of (env := env) (dct := dct) (acts := acts) (means_call hmf hms)
  obtain ⟨s1, h1, hs1⟩ := hbf s hs
  obtain ⟨s2, h2, hs2⟩ := hbs s1 hs1
  have hrts : ∀ es : List Expr, Expr.rts es = es.map Expr.rt := by
    intro es; induction es with
    | nil => rfl
    | cons e es ih => simp [Expr.rts, ih]
  have hund : ∀ t, DataType.eq t .undefined = true ↔ t = .undefined := by intro t; cases t <;> simp [DataType.eq]
  simp only [ho, RE.build]
  rw [bind_ok' h1, bind_ok' h2]
  unfold mkCall
  rw [hrts]
  refine ⟨fun ha hr => ?_, fun h0 ha => ?_⟩
  · refine ⟨.call fe es, ?_, fun n r a m h => by simp only [Expr.rt, h]; rfl⟩
    by_cases h0 : DataType.eq fe.rt .undefined = true
    · simp only [h0, if_true, hr, Bool.false_eq_true, if_false]
      rfl
    · rcases ha with ha | ha
      · exact absurd ((hund _).2 ha) h0
      · rw [(validateCall_iff _ _).2 ha]
        simp only [h0, hr, Bool.false_eq_true, if_false]
        rfl
  · have h0 : DataType.eq fe.rt .undefined = false := by
      cases h : DataType.eq fe.rt .undefined
      · rfl
      · exact absurd ((hund _).1 h) h0
    rw [validateCall_error _ _ ha]
    simp only [h0, Bool.false_eq_true, if_false]
    rfl

/-- **C59.** `not (a)` and `(a) ? (b) : (c)` take any types, `-(a)` takes any `a` that is not constant. -/
theorem any_types {codec : LitCodec} {env : Env} {dct : DecCtx} {a b c : List Char} {x y z : Expr}
    (ha : Part codec env dct a x) (hb : Part codec env dct b y) (hc : Part codec env dct c z) (acts : List TextAct) :
    (x.reduced = false →
      ∃ e, outcome codec env dct acts ("not ".toList ++ par a) = .ok e ∧ e.rt = .boolean) ∧
    (x.reduced = false → ∃ e, outcome codec env dct acts ('-' :: par a) = .ok e ∧ e.rt = x.rt) ∧
    ∃ e, outcome codec env dct acts (par a ++ " ? ".toList ++ par b ++ " : ".toList ++ par c) = .ok e := by
  obtain ⟨ra, hma, hba⟩ := ha.build
  obtain ⟨rb, hmb, hbb⟩ := hb.build
  obtain ⟨rc, hmc, hbc⟩ := hc.build
  refine ⟨fun hr => ?_, fun hr => ?_, ?_⟩
  · obtain ⟨s, hs, ho⟩ := outcome_of (env := env) (dct := dct) (acts := acts) (means_not hma)
    obtain ⟨s1, h1, hs1⟩ := hba s hs
    refine ⟨.not x, ?_, rfl⟩
    rw [ho]
    simp only [RE.build]
    rw [bind_ok' h1]
    simp [mkNot, hr]
  · obtain ⟨s, hs, ho⟩ := outcome_of (env := env) (dct := dct) (acts := acts) (means_neg hma)
    obtain ⟨s1, h1, hs1⟩ := hba s hs
    refine ⟨.neg x, ?_, rfl⟩
    rw [ho]
    simp only [RE.build]
    rw [bind_ok' h1]
    simp [mkNeg, hr]
  · obtain ⟨s, hs, ho⟩ := outcome_of (env := env) (dct := dct) (acts := acts) (means_tern hma hmb hmc)
    obtain ⟨s1, h1, hs1⟩ := hba s hs
    obtain ⟨s2, h2, hs2⟩ := hbb s1 hs1
    obtain ⟨s3, h3, hs3⟩ := hbc s2 hs2
    refine ⟨mkTern x y z, ?_⟩
    rw [ho]
    simp only [RE.build]
    rw [bind_ok' h1, bind_ok' h2, bind_ok' h3]
    rfl

/-- A name whose type has been declared is a part of that type, and not constant. -/
theorem part_symbol {codec : LitCodec} {env : Env} {dct : DecCtx} {x : List Char} {t : DataType} (hx : IsWord x)
    (hd : x.head? ≠ some '$') (ht : env.typeResolver (String.ofList x) = .ok t) :
    Part codec env dct x (.sym (String.ofList x) t false) := by
  have hsym : Means codec x (.sym (String.ofList x) false) := by
    have := means_sym (codec := codec) hx
    rwa [show symRaw x = .sym (String.ofList x) false from by
      unfold symRaw; cases x with
      | nil => rfl
      | cons c cs => simp only [List.head?_cons, ne_eq, Option.some.injEq] at hd; split <;> simp_all] at this
  refine ⟨⟨_, hsym⟩, [], ?_⟩
  refine (rule_of_means hsym).trans ?_
  simp only [RE.build, mkSym, M.bind_apply, M.modify, ctxResolveType, ht, St.init, scopeLookup, List.find?_nil,
    Bool.false_eq_true, if_false, M.pure_apply]

/-- Types declared as in the documentation of `type_resolver_from_dict`: a text, a number, a list of numbers. -/
def declaredEnv : Env :=
  { sampleEnv with typeResolver := typeResolverFromDict [("s", .string), ("y", .float), ("l", .array .float true)] }

/-- The hypotheses are met on both sides of the line: with `s` a STRING, `y` a FLOAT and `l` an array of FLOATs, after
any history `(s) + (y)`, `(y) in (s)`, `(y)[y]` and `(y).length` are refused, `(y) + (y)`, `(y) in (l)`, `(l)[y]` and
`(l).length` are accepted, the last of type FLOAT. -/
theorem declared_accepted_or_refused (codec : LitCodec) (dct : DecCtx) (acts : List TextAct) :
    outcome codec declaredEnv dct acts "(s) + (y)".toList = .error (.eng .evaluation) ∧
    (∃ e, outcome codec declaredEnv dct acts "(y) + (y)".toList = .ok e ∧ e.rt = .float) ∧
    outcome codec declaredEnv dct acts "(y) in (s)".toList = .error (.eng .evaluation) ∧
    (∃ e, outcome codec declaredEnv dct acts "(y) in (l)".toList = .ok e ∧ e.rt = .boolean) ∧
    outcome codec declaredEnv dct acts "(y)[y]".toList = .error (.eng .evaluation) ∧
    (∃ e, outcome codec declaredEnv dct acts "(l)[y]".toList = .ok e) ∧
    outcome codec declaredEnv dct acts "(y).length".toList = .error (.eng (.attributeResolution "length")) ∧
    ∃ e, outcome codec declaredEnv dct acts "(l).length".toList = .ok e ∧ e.rt = .float := by
  have hs : Part codec declaredEnv dct ['s'] (.sym "s" .string false) :=
    part_symbol (x := ['s']) ⟨by decide, by decide⟩ (by simp) rfl
  have hy : Part codec declaredEnv dct ['y'] (.sym "y" .float false) :=
    part_symbol (x := ['y']) ⟨by decide, by decide⟩ (by simp) rfl
  have hl : Part codec declaredEnv dct ['l'] (.sym "l" (.array .float true) false) :=
    part_symbol (x := ['l']) ⟨by decide, by decide⟩ (by simp) rfl
  have hw : IsWord "length".toList := ⟨by decide, by decide⟩
  refine ⟨?_, ?_, ?_, ?_, ?_, ?_, ?_, ?_⟩
  · refine (operator_types hs hy .ADD (by decide) acts).2.1 ?_
    rintro ⟨l, r, t, hl, hr, h⟩
    rcases hl with hl | rfl
    · cases hl
    rcases hr with hr | rfl
    · cases hr
    cases h <;> contradiction
  · obtain ⟨e, he, ht⟩ := (operator_types hy hy .ADD (by decide) acts).1
      ⟨_, _, _, .inr rfl, .inr rfl, .addFloats⟩ trivial rfl
    exact ⟨e, he, ht _ .addFloats⟩
  · refine (membership_types hy hs acts).2 ?_
    rintro ⟨c, m, hc, hm, h⟩
    rcases hc with hc | rfl
    · cases hc
    rcases hm with hm | rfl
    · cases hm
    cases h
  · exact (membership_types hy hl acts).1 ⟨_, _, .inr rfl, .inr rfl, by constructor⟩ rfl
  · refine (item_types hy hy false acts).2 ?_
    rintro ⟨c, m, t, hc, hm, h⟩
    rcases hc with hc | rfl
    · cases hc
    rcases hm with hm | rfl
    · cases hm
    cases h
  · obtain ⟨e, he, -⟩ := (item_types hl hy false acts).1 ⟨_, _, _, .inr rfl, .inr rfl, by constructor⟩ rfl
    exact ⟨e, he⟩
  · refine (attribute_types hy hw (by decide) false acts).2 ?_
    rintro (h | h | ⟨k, v, b, h⟩ | ⟨u, h⟩)
    · cases h
    · cases h.1
    · cases h
    · simp [attrTable, Expr.rt] at h
  · obtain ⟨e, he, ht⟩ := (attribute_types hl hw (by decide) false acts).1
      (.inr (.inr (.inr ⟨.float, by decide⟩))) rfl
    exact ⟨e, he, ht _ (by decide)⟩

end RE
