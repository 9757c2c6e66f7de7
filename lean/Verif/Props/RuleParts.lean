import Verif.Props.AttrRules
import Verif.Props.Locality
import Verif.Props.Laws

/-!
# The value of a rule in terms of the values of its parts (C68)
-/

set_option linter.unusedSimpArgs false
set_option linter.unusedVariables false

namespace RE

/-! ### Operations on constants give values that can be written as literals -/

theorem literal_num {off : TzDb} {v : Value} (h : v.Literal off) (hn : isNumeric v = true) :
    ∃ d, v = .dec d := by
  cases v <;> simp_all [Value.Literal, isNumeric]

theorem mkDatetime_literal {off : TzDb} {us : Int} {tz : Option Nat} {v : Value}
    (h : mkDatetime us tz = .ok v) : v.Literal off := by
  unfold mkDatetime at h
  split at h <;> cases h
  trivial

theorem mkTimedelta_literal {off : TzDb} {us : Int} {v : Value}
    (h : mkTimedelta us = .ok v) : v.Literal off := by
  unfold mkTimedelta at h
  split at h <;> cases h
  trivial

theorem opAdd_literal {env : Env} {dc : DecCtx} {off : TzDb} {a b v : Value} (ha : a.Literal off)
    (hb : b.Literal off) (h : opAdd env dc a b = .ok v) : v.Literal off := by
  simp only [opAdd, except_bind_ok] at h
  obtain ⟨_, h1, h2⟩ := h
  unfold pyAdd at h2
  split at h2
  · exact mkDatetime_literal h2
  · exact mkDatetime_literal h2
  · exact mkTimedelta_literal h2
  · cases h2; trivial
  · cases h2; trivial
  · rename_i n1 n2 n3 n4 n5
    cases a <;> simp only [Value.Literal] at ha <;>
    cases b <;> simp only [Value.Literal] at hb <;>
      first
        | exact (n1 _ _ _ rfl rfl).elim
        | exact (n2 _ _ _ rfl rfl).elim
        | exact (n3 _ _ rfl rfl).elim
        | exact (n4 _ _ rfl rfl).elim
        | exact (n5 _ _ rfl rfl).elim
        | (obtain ⟨d, rfl⟩ := numOp_dec h2; trivial)
        | (exfalso; simp [addCheck, Value.isBytes, Value.isStr, assertNumeric, isNumeric, numOp, Value.isDec,
            Value.asIntDec, Value.asInt, Value.asNumber, except_bind_ok] at h1 h2)

theorem opSub_literal {env : Env} {dc : DecCtx} {off : TzDb} {a b v : Value} (ha : a.Literal off)
    (hb : b.Literal off) (h : opSub env dc a b = .ok v) : v.Literal off := by
  simp only [opSub, except_bind_ok] at h
  obtain ⟨_, h1, h2⟩ := h
  unfold pySub at h2
  split at h2
  · split at h2
    · exact mkTimedelta_literal h2
    · split at h2 <;> exact mkTimedelta_literal h2
    · cases h2
  · exact mkDatetime_literal h2
  · exact mkTimedelta_literal h2
  · rename_i n1 n2 n3
    cases a <;> simp only [Value.Literal] at ha <;>
    cases b <;> simp only [Value.Literal] at hb <;>
      first
        | exact (n1 _ _ _ _ rfl rfl).elim
        | exact (n2 _ _ _ rfl rfl).elim
        | exact (n3 _ _ rfl rfl).elim
        | (obtain ⟨d, rfl⟩ := numOp_dec h2; trivial)
        | (exfalso; simp [subCheck, assertNumeric, isNumeric, numOp, Value.isDec,
            Value.asIntDec, Value.asInt, Value.asNumber, except_bind_ok] at h1 h2)

theorem opArith_literal {env : Env} {dc : DecCtx} {off : TzDb} {op : ArithOp} {a b v : Value}
    (ha : a.Literal off) (hb : b.Literal off) (na : assertNumeric a = .ok ())
    (nb : assertNumeric b = .ok ()) (h : opArith env dc op a b = .ok v) : v.Literal off := by
  obtain ⟨x, rfl⟩ := literal_num ha (assertNumeric_isNumeric na)
  obtain ⟨y, rfl⟩ := literal_num hb (assertNumeric_isNumeric nb)
  unfold opArith at h
  split at h
  · rename_i w hw
    cases h
    obtain ⟨d, rfl⟩ := numOp_dec hw
    trivial
  · split at h <;> cases h

theorem opBitSet_literal {env : Env} {op : BitOp} {xs : List Value} {b v : Value}
    (hx : (Value.set xs).Literal env.utcoffset) (hb : b.Literal env.utcoffset)
    (h : opBitSet env.utcoffset op xs b = .ok v) : v.Literal env.utcoffset := by
  simp only [opBitSet, except_bind_ok] at h
  obtain ⟨bt, -, h⟩ := h
  split at h
  · cases b <;> simp only [reduceCtorEq] at h
    rename_i ys
    simp only [except_bind_ok, Except.ok.injEq] at h
    obtain ⟨zs, hz, rfl⟩ := h
    simp only [Value.Literal, allLiteral_iff] at hx hb ⊢
    refine ⟨bitSet_members hx.1 hb.1 hz, bitSet_members hx.2.1 hb.2.1 hz, ?_⟩
    cases op <;> simp [bitSet] at hz <;> subst hz
    · exact hx.2.2.filter _
    · rw [List.pairwise_append]
      refine ⟨hx.2.2, hb.2.2.filter _, ?_⟩
      intro a ha b hb
      simp only [List.mem_filter, Bool.not_eq_eq_eq_not, Bool.not_true, List.any_eq_false] at hb
      simpa using hb.2 a ha
    · rw [List.pairwise_append]
      refine ⟨hx.2.2.filter _, hb.2.2.filter _, ?_⟩
      intro a ha b hb
      simp only [List.mem_filter, Bool.not_eq_eq_eq_not, Bool.not_true, List.any_eq_false] at ha hb
      simpa using hb.2 a ha.1
  · cases h

theorem opFuzzy_literal {env : Env} {off : TzDb} {a b : Bool} {l r v : Value} {s s' : St}
    (h : opFuzzy env a b l r s = (.ok v, s')) : v.Literal off := by
  cases r with
  | str p =>
    simp only [opFuzzy] at h
    split at h
    · cases l with
      | str l =>
        simp only at h
        cases hr : env.reRun a p l with
        | none =>
          rw [hr] at h
          simp only [M.pure_eq_ok] at h
          rw [← h.1]; trivial
        | some gs =>
          rw [hr] at h
          simp only [recordMatch, M.bind_apply, M.modify_apply, M.pure_apply, Prod.mk.injEq,
            Except.ok.injEq] at h
          rw [← h.1]; trivial
      | _ =>
        simp only [M.pure_eq_ok] at h
        rw [← h.1]; trivial
    · simp at h
  | none =>
    cases l <;> simp only [opFuzzy, M.pure_eq_ok] at h <;> rw [← h.1] <;> trivial
  | _ => simp [opFuzzy] at h

theorem bit_literal {env : Env} {op : BitOp} {l r : M Value}
    (hl : Gives (Value.Literal env.utcoffset) l) (hr : Gives (Value.Literal env.utcoffset) r) :
    Gives (Value.Literal env.utcoffset) (do
      let a ← l
      let t ← M.lift (fromValue a)
      if DataType.eq t .float then do
        M.lift (assertNatural a)
        let b ← r
        M.lift (opBitNat env op a b)
      else
        match a with
        | .set xs => do
          let b ← r
          M.lift (opBitSet env.utcoffset op xs b)
        | _ => M.throw .mismatch) := by
  intro s v s' h
  rw [M.bind_eq_ok] at h
  obtain ⟨a, s1, h1, h⟩ := h
  rw [M.bind_eq_ok] at h
  obtain ⟨t, s2, h2, h⟩ := h
  split at h
  · simp only [M.bind_eq_ok, M.lift_eq_ok] at h
    obtain ⟨_, _, _, b, _, _, h, _⟩ := h
    obtain ⟨n, rfl⟩ := opBitNat_ok h
    trivial
  · have ha := hl _ _ _ h1
    cases a <;> simp only [M.throw_apply, Prod.mk.injEq, reduceCtorEq, false_and] at h
    simp only [M.bind_eq_ok, M.lift_eq_ok] at h
    obtain ⟨b, _, h3, h4, _⟩ := h
    exact opBitSet_literal ha (hr _ _ _ h3) h4

theorem evalBin_literal {env : Env} {dc : DecCtx} {op : BinOp} {l r : M Value}
    (hl : Gives (Value.Literal env.utcoffset) l) (hr : Gives (Value.Literal env.utcoffset) r) :
    Gives (Value.Literal env.utcoffset) (evalBin env dc op l r) := by
  cases op with
  | bit op => exact bit_literal hl hr
  | shift op => exact bit_literal hl hr
  | add =>
    intro s v s' h
    simp only [evalBin, M.bind_eq_ok, M.lift_eq_ok] at h
    obtain ⟨a, _, h1, b, _, h2, h3, _⟩ := h
    exact opAdd_literal (hl _ _ _ h1) (hr _ _ _ h2) h3
  | sub =>
    intro s v s' h
    simp only [evalBin, M.bind_eq_ok, M.lift_eq_ok] at h
    obtain ⟨a, _, h1, b, _, h2, h3, _⟩ := h
    exact opSub_literal (hl _ _ _ h1) (hr _ _ _ h2) h3
  | arith op =>
    intro s v s' h
    simp only [evalBin, M.bind_eq_ok, M.lift_eq_ok] at h
    obtain ⟨a, _, h1, _, _, ⟨n1, _⟩, b, _, h2, _, _, ⟨n2, _⟩, h3, _⟩ := h
    exact opArith_literal (hl _ _ _ h1) (hr _ _ _ h2) n1 n2 h3
  | and =>
    intro s v s' h
    simp only [evalBin] at h
    rw [M.bind_eq_ok] at h
    obtain ⟨a, s1, h1, h⟩ := h
    split at h
    · simp only [M.bind_eq_ok, M.pure_eq_ok] at h
      obtain ⟨_, _, _, rfl, _⟩ := h
      trivial
    · rw [M.pure_eq_ok] at h
      rw [← h.1]; trivial
  | or =>
    intro s v s' h
    simp only [evalBin] at h
    rw [M.bind_eq_ok] at h
    obtain ⟨a, s1, h1, h⟩ := h
    split at h
    · rw [M.pure_eq_ok] at h
      rw [← h.1]; trivial
    · simp only [M.bind_eq_ok, M.pure_eq_ok] at h
      obtain ⟨_, _, _, rfl, _⟩ := h
      trivial
  | eq =>
    intro s v s' h
    simp only [evalBin, M.bind_eq_ok, M.pure_eq_ok] at h
    obtain ⟨_, _, _, _, _, _, rfl, _⟩ := h
    trivial
  | ne =>
    intro s v s' h
    simp only [evalBin, M.bind_eq_ok, M.pure_eq_ok] at h
    obtain ⟨_, _, _, _, _, _, rfl, _⟩ := h
    trivial
  | cmp op =>
    intro s v s' h
    simp only [evalBin, M.bind_eq_ok, M.pure_eq_ok] at h
    obtain ⟨_, _, _, _, _, _, _, _, _, rfl, _⟩ := h
    trivial
  | fuzzy a b =>
    intro s v s' h
    simp only [evalBin] at h
    rw [M.bind_eq_ok] at h
    obtain ⟨x, s1, h1, h⟩ := h
    cases x <;> simp only [M.throw_apply, Prod.mk.injEq, reduceCtorEq, false_and] at h <;>
    · rw [M.bind_eq_ok] at h
      obtain ⟨y, s2, h2, h⟩ := h
      exact opFuzzy_literal h

theorem opNeg_literal {dc : DecCtx} {off : TzDb} {a v : Value} (ha : a.Literal off)
    (h : opNeg dc a = .ok v) : v.Literal off := by
  cases a <;> simp only [Value.Literal] at ha <;>
    simp [opNeg, isNumeric, pyNeg] at h
  · rename_i d
    cases hx : decNeg dc d with
    | error e => rw [hx] at h; cases h
    | ok d => rw [hx] at h; cases h; trivial
  · exact mkTimedelta_literal h

theorem itemOf_literal {env : Env} {c v : Value} (hc : c.Literal env.utcoffset) (h : ItemOf c v) :
    (newValue env v).Literal env.utcoffset := by
  cases h with
  | str c => exact newValue_literal (by trivial)
  | bytes x => simp only [newValue, coerce, localise]; trivial
  | @seq k xs _ h =>
    cases k <;> simp only [Value.Literal] at hc
    exact newValue_literal (allLiteral_iff.1 hc _ h)
  | @map k kvs p h =>
    cases k <;> simp only [Value.Literal] at hc
    exact newValue_literal (pairsLiteral_iff.1 hc.1 _ h).2

theorem slice_literal {off : TzDb} {c v : Value} {a b : Option Int} (hc : c.Literal off)
    (h : pyGetSlice c a b = .ok v) : v.Literal off := by
  cases c <;> simp only [pyGetSlice, Except.ok.injEq, reduceCtorEq] at h <;> subst h
  · trivial
  · trivial
  · rename_i k xs
    cases k <;> simp only [Value.Literal] at hc ⊢
    rw [allLiteral_iff] at hc ⊢
    exact fun x hx => hc x (pySlice_mem hx)

/-! ### Evaluation without `$re_groups` -/

/-- from states with the same variables: the same value or exception, and the variables are as before -/
structure SameOut {α : Type} (m m' : M α) : Prop where
  out : ∀ s s2 : St, s.scopes = s2.scopes → (m s).1 = (m' s2).1
  left : ∀ s : St, (m s).2.scopes = s.scopes
  right : ∀ s : St, (m' s).2.scopes = s.scopes

theorem bind_scopes {α β : Type} {m : M α} {f : α → M β} (hm : ∀ s : St, (m s).2.scopes = s.scopes)
    (hf : ∀ a (s : St), (f a s).2.scopes = s.scopes) (s : St) : ((m >>= f) s).2.scopes = s.scopes := by
  have := hm s
  rw [M.bind_apply]
  rcases h : m s with ⟨x, t⟩
  rw [h] at this
  cases x with
  | error e => exact this
  | ok a => exact (hf a t).trans this

theorem catch_scopes {α : Type} {m : M α} {e : Err} (hm : ∀ s : St, (m s).2.scopes = s.scopes) (s : St) :
    (M.catchErr m (fun _ => M.throw e) s).2.scopes = s.scopes := by
  have := hm s
  unfold M.catchErr
  rcases h : m s with ⟨x, t⟩
  rw [h] at this
  cases x <;> exact this

theorem withScope_scopes {α : Type} {m : M α} {a : Assignment} (hm : ∀ s : St, (m s).2.scopes = s.scopes) (s : St) :
    (M.withScope a m s).2.scopes = s.scopes := by
  simp only [M.withScope, hm, List.dropLast_concat]

theorem sameOut_closed : RelClosed @SameOut where
  lift x := ⟨fun _ _ _ => rfl, fun _ => rfl, fun _ => rfl⟩
  bind := by
    intro α β m m' f f' hm hf
    refine ⟨fun s s2 h => ?_, bind_scopes hm.left fun a => (hf a).left, bind_scopes hm.right fun a => (hf a).right⟩
    have h1 := hm.out s s2 h
    have h2 := hm.left s
    have h3 := hm.right s2
    rw [M.bind_apply, M.bind_apply]
    rcases e1 : m s with ⟨x, t⟩
    rcases e2 : m' s2 with ⟨x', t'⟩
    rw [e1] at h1 h2
    rw [e2] at h1 h3
    simp only at h1 h2 h3
    subst h1
    cases x with
    | error e => rfl
    | ok a => exact (hf a).out t t' (h2.trans (h.trans h3.symm))
  setGroups _ _ := ⟨fun _ _ _ => rfl, fun _ => rfl, fun _ => rfl⟩
  logCall _ _ _ _ := ⟨fun _ _ _ => rfl, fun _ => rfl, fun _ => rfl⟩
  rethrow := by
    intro α e m m' hm
    refine ⟨fun s s2 h => ?_, catch_scopes hm.left, catch_scopes hm.right⟩
    have h1 := hm.out s s2 h
    unfold M.catchErr
    rcases e1 : m s with ⟨x, t⟩
    rcases e2 : m' s2 with ⟨x', t'⟩
    rw [e1, e2] at h1
    simp only at h1
    subst h1
    cases x <;> rfl
  withScope := by
    intro α a m m' hm
    refine ⟨fun s s2 h => ?_, withScope_scopes hm.left, withScope_scopes hm.right⟩
    exact hm.out { s with scopes := s.scopes ++ [a] } { s2 with scopes := s2.scopes ++ [a] } (by simp [h])

theorem symbol_sameOut {env : Env} {thing : Value} {name : String} {rt : DataType} {b : Bool}
    (hg : ¬ (b = true ∧ name = "re_groups")) :
    SameOut (evalSymbol env thing name rt b) (evalSymbol env thing name rt b) := by
  refine sameOut_closed.bind ?_ fun v => sameOut_closed.lift _
  have hk : ∀ s : St, (M.catchErr (ctxResolve env thing name b) (fun e =>
      match isSymErr e, env.defaultValue with
      | true, some d => pure d
      | _, _ => M.throw e) s).2.scopes = s.scopes := by
    intro s
    have := ctxResolve_keeps env thing name b s
    unfold M.catchErr
    rcases hx : ctxResolve env thing name b s with ⟨x, t⟩
    rw [hx] at this
    cases x with
    | ok a => exact this.1
    | error e =>
      simp only
      cases isSymErr e <;> cases env.defaultValue <;> exact this.1
  refine ⟨fun s s2 hs => ?_, hk, hk⟩
  have h1 := ctxResolve_reads env thing name b s s2 hs (fun hb hn => (hg ⟨hb, hn⟩).elim)
  unfold M.catchErr
  rcases hx : ctxResolve env thing name b s with ⟨x, t⟩
  rcases hy : ctxResolve env thing name b s2 with ⟨y, t'⟩
  rw [hx, hy] at h1
  simp only at h1
  subst h1
  cases x with
  | ok a => rfl
  | error e =>
    simp only
    cases isSymErr e <;> cases env.defaultValue <;> rfl

theorem attr_sameOut {env : Env} {o : Value} {name : String} :
    SameOut (evalGetAttr env o name) (evalGetAttr env o name) := by
  have hk : ∀ s : St, (evalGetAttr env o name s).2.scopes = s.scopes := by
    rintro ⟨sc, g, sy, lg⟩
    obtain ⟨x, l, h⟩ := evalGetAttr_framed env o name sc g
    rw [h sy lg]
  refine ⟨fun s s2 hs => ?_, hk, hk⟩
  have h1 := ctxResolve_reads env o name false s s2 hs (by simp)
  unfold evalGetAttr
  rcases hx : ctxResolve env o name false s with ⟨x, t⟩
  rcases hy : ctxResolve env o name false s2 with ⟨y, t'⟩
  rw [hx, hy] at h1
  simp only at h1
  subst h1
  cases resolveAttr env o name with
  | ok v => rfl
  | error e =>
    simp only
    cases isAttrErr e with
    | false => rfl
    | true =>
      cases x with
      | ok a => rfl
      | error e =>
        simp only
        cases isSymErr e <;> cases env.defaultValue <;> rfl

mutual
theorem freeIn_allNames {P : Use → Prop} {Q : String → Prop} {P' : String → DataType → Bool → Prop}
    (hP : ∀ n b t c, P ⟨n, b, c⟩ → P' n t b) : ∀ (e : Expr) (bound : List String), e.FreeIn P Q bound → e.allNames P' Q
  | .lit .., _, _ => by simp only [Expr.allNames]
  | .sym .., _, h => by simp only [Expr.allNames]; simp only [Expr.FreeIn] at h; exact hP _ _ _ _ h
  | .array xs, _, h | .set xs, _, h => by
    simp only [Expr.allNames]; simp only [Expr.FreeIn] at h; exact freeIns_allNames hP xs _ h
  | .mapping xs, _, h => by
    simp only [Expr.allNames]; simp only [Expr.FreeIn] at h; exact freeInp_allNames hP xs _ h
  | .bin _ l r, _, h | .contains l r, _, h | .getItem l r _, _, h => by
    simp only [Expr.allNames]; simp only [Expr.FreeIn] at h
    exact ⟨freeIn_allNames hP l _ h.1, freeIn_allNames hP r _ h.2⟩
  | .comp r _ it c, _, h => by
    simp only [Expr.allNames]; simp only [Expr.FreeIn] at h
    exact ⟨freeIn_allNames hP r _ h.2.2, freeIn_allNames hP it _ h.1, freeIn_allNames hP c _ h.2.1⟩
  | .getAttr o _ _, _, h => by
    simp only [Expr.allNames]; simp only [Expr.FreeIn] at h
    exact ⟨freeIn_allNames hP o _ h.2, h.1⟩
  | .getSlice c a b _, _, h | .tern c a b, _, h => by
    simp only [Expr.allNames]; simp only [Expr.FreeIn] at h
    exact ⟨freeIn_allNames hP c _ h.1, freeIn_allNames hP a _ h.2.1, freeIn_allNames hP b _ h.2.2⟩
  | .call f xs, _, h => by
    simp only [Expr.allNames]; simp only [Expr.FreeIn] at h
    exact ⟨freeIn_allNames hP f _ h.1, freeIns_allNames hP xs _ h.2⟩
  | .not e, _, h | .neg e, _, h => by
    simp only [Expr.allNames]; simp only [Expr.FreeIn] at h; exact freeIn_allNames hP e _ h
theorem freeIns_allNames {P : Use → Prop} {Q : String → Prop} {P' : String → DataType → Bool → Prop}
    (hP : ∀ n b t c, P ⟨n, b, c⟩ → P' n t b) : ∀ (es : List Expr) (bound : List String), Expr.FreeInList P Q bound es →
    Expr.allNamesList P' Q es
  | [], _, _ => by simp only [Expr.allNamesList]
  | e :: es, _, h => by
    simp only [Expr.allNamesList]; simp only [Expr.FreeInList] at h
    exact ⟨freeIn_allNames hP e _ h.1, freeIns_allNames hP es _ h.2⟩
theorem freeInp_allNames {P : Use → Prop} {Q : String → Prop} {P' : String → DataType → Bool → Prop}
    (hP : ∀ n b t c, P ⟨n, b, c⟩ → P' n t b) : ∀ (es : List (Expr × Expr)) (bound : List String),
    Expr.FreeInPairs P Q bound es → Expr.allNamesPairs P' Q es
  | [], _, _ => by simp only [Expr.allNamesPairs]
  | (k, v) :: es, _, h => by
    simp only [Expr.allNamesPairs]; simp only [Expr.FreeInPairs] at h
    exact ⟨freeIn_allNames hP k _ h.1, freeIn_allNames hP v _ h.2.1, freeInp_allNames hP es _ h.2.2⟩
end

/-- **Specification.** `$re_groups` is not written in the text. -/
def NoGroups (codec : LitCodec) (t : List Char) : Prop :=
  ∃ raw, Means codec t raw ∧ ∀ u ∈ raw.uses [], ¬ (u.dollar = true ∧ u.name = "re_groups")

theorem means_unique {codec : LitCodec} {t : List Char} {r r' : Raw} (h : Means codec t r) (h' : Means codec t r') :
    r = r' := by
  have := (h 1).symm.trans (h' 1)
  simpa using this

/-- evaluating a rule without `$re_groups` gives the same whatever was matched before -/
theorem noGroups_sameOut {codec : LitCodec} {env : Env} {dct : DecCtx} {t : List Char} {e : Expr}
    (ht : Part codec env dct t e) (hg : NoGroups codec t) (dc : DecCtx) (thing : Value) :
    SameOut (eval env dc thing e) (eval env dc thing e) := by
  obtain ⟨raw, hm, hu⟩ := hg
  obtain ⟨raw', hm', hb⟩ := ht.build
  cases means_unique hm hm'
  obtain ⟨s', hb, -⟩ := hb St.init rfl
  have hf := built_free (P := fun u => ¬ (u.dollar = true ∧ u.name = "re_groups")) (Q := fun _ => True) raw [] hu
    (fun _ _ => trivial) (build_built raw hb)
  exact eval_rel sameOut_closed (env := env) (r := env.resolver) (t := env.typeResolver) (d := env.defaultValue)
    dc (thing := thing) (thing' := thing) (P := fun n _ b => ¬ (b = true ∧ n = "re_groups")) (Q := fun _ => True)
    (fun n rt b h => symbol_sameOut h) (fun o n _ => attr_sameOut) e
    (freeIn_allNames (P' := fun n _ b => ¬ (b = true ∧ n = "re_groups")) (fun n b _ _ h => h) e _ hf)

/-! ### Constants -/

theorem outcome_closed : RelClosed (fun {α : Type} (m m' : M α) => ∀ s s2 : St, (m s).1 = (m' s2).1) where
  toRelBase := outcome_base
  withScope := by
    intro α a m m' h s s2
    exact h _ _

/-- no names at all -/
def Expr.NoNames (e : Expr) : Prop := e.allNames (fun _ _ _ => False) (fun _ => False)

theorem reduced_noNames {e : Expr} (h : e.reduced = true) : e.NoNames :=
  freeIn_allNames (P := fun _ => False) (fun _ _ _ _ h => h) e [] (reduced_free [] e h)

theorem noNames_out {env : Env} {e : Expr} (h : e.NoNames) (dc : DecCtx) (thing thing' : Value) (s s2 : St) :
    (eval env dc thing e s).1 = (eval env dc thing' e s2).1 :=
  eval_rel outcome_closed (env := env) (r := env.resolver) (t := env.typeResolver) (d := env.defaultValue)
    dc (thing := thing) (thing' := thing') (P := fun _ _ _ => False) (Q := fun _ => False)
    (fun n rt b h => h.elim) (fun o n h => h.elim) e h s s2

theorem foldLit_out {env : Env} {dct : DecCtx} {node e : Expr} {s0 s1 : St} (h : foldLit env dct node s0 = (.ok e, s1))
    (hn : node.NoNames) (hl : Gives (Value.Literal env.utcoffset) (eval env dct .none node)) (dc : DecCtx)
    (thing thing' : Value) (s s2 : St) : (eval env dc thing e s).1 = (eval env dct thing' node s2).1 := by
  unfold foldLit at h
  simp only [M.bind_eq_ok, M.lift_eq_ok] at h
  obtain ⟨v, s3, h1, h2, -⟩ := h
  simp only [litOf, except_bind_ok, Except.ok.injEq] at h2
  obtain ⟨t, -, rfl⟩ := h2
  rw [eval_ofValue_literal env dc thing v (hl _ _ _ h1), ← noNames_out hn dct .none thing' s0 s2, h1]
  rfl

theorem Part.gives {codec : LitCodec} {env : Env} {dct : DecCtx} {t : List Char} {l : Expr}
    (ha : Part codec env dct t l) (hr : l.reduced = true) (dc : DecCtx) (thing : Value) :
    Gives (Value.Literal env.utcoffset) (eval env dc thing l) := fun _ _ _ h => part_literal ha hr h

/-! ### Operators on outcomes -/

/-- **Specification.** What a binary operator gives, from what its operands give. -/
def BinOp.on (env : Env) (op : BinOp) (x y : Except Err Value) : Except Err Value :=
  match op with
  | .and => do
    let a ← x
    if a.truthy then do
      let b ← y
      .ok (.bool b.truthy)
    else .ok (.bool false)
  | .or => do
    let a ← x
    if a.truthy then .ok (.bool true)
    else do
      let b ← y
      .ok (.bool b.truthy)
  | .eq => do
    let a ← x
    let b ← y
    .ok (.bool (opEq env.utcoffset a b))
  | .ne => do
    let a ← x
    let b ← y
    .ok (.bool (opNe env.utcoffset a b))
  | .cmp c => do
    let a ← x
    let b ← y
    let r ← opCmpValues env.utcoffset a c b
    .ok (.bool r)
  | .add => do
    let a ← x
    let b ← y
    opAdd env env.decCtx a b
  | .sub => do
    let a ← x
    let b ← y
    opSub env env.decCtx a b
  | .arith c => do
    let a ← x
    assertNumeric a
    let b ← y
    assertNumeric b
    opArith env env.decCtx c a b
  | .bit c | .shift c => do
    let a ← x
    let t ← fromValue a
    if DataType.eq t .float then do
      assertNatural a
      let b ← y
      opBitNat env c a b
    else
      match a with
      | .set xs => do
        let b ← y
        opBitSet env.utcoffset c xs b
      | _ => .error .mismatch
  | .fuzzy search negate => do
    let a ← x
    match a with
    | .str _ | .none => do
      let b ← y
      (opFuzzy env search negate a b St.init).1
    | _ => .error .mismatch

/-- **Specification.** `in`, from what the container `x` and the member `y` give. -/
def containsOn (env : Env) (x y : Except Err Value) : Except Err Value := do
  let c ← x
  let t ← fromValue c
  let m ← y
  let b ← opContains env.utcoffset t c m
  .ok (.bool b)

/-- **Specification.** `x[y]`, `x&[y]`. -/
def itemOn (env : Env) (safe : Bool) (x y : Except Err Value) : Except Err Value := do
  let c ← x
  if c = .none then (if safe then .ok .none else .error .mismatch)
  else do
    let i ← y
    match ← opGetItem env.utcoffset c i with
    | some v => .ok (newValue env v)
    | none => if safe then .ok .none else .error (.eng .lookup)

/-- **Specification.** `x[y:z]`, `x&[y:z]`. -/
def sliceOn (env : Env) (safe : Bool) (x y z : Except Err Value) : Except Err Value := do
  let c ← x
  if c = .none then (if safe then .ok .none else .error .mismatch)
  else do
    let a ← y
    let a ← sliceArg a
    let b ← z
    let b ← sliceArg b
    let v ← pyGetSlice c a b
    .ok (coerce env.utcoffset v)

/-- **Specification.** `x ? y : z`. -/
def ternOn (x y z : Except Err Value) : Except Err Value := do
  let c ← x
  if c.truthy then y else z

/-- **Specification.** `[x, …]`: the values in order, or the first exception. -/
def arrayOn : List (Except Err Value) → Except Err (List Value)
  | [] => .ok []
  | x :: xs => do
    let v ← x
    let vs ← arrayOn xs
    .ok (v :: vs)

theorem opFuzzy_out {env : Env} {search negate : Bool} {a b : Value} (s s2 : St) :
    (opFuzzy env search negate a b s).1 = (opFuzzy env search negate a b s2).1 :=
  opFuzzy_rel outcome_base env env.resolver env.typeResolver env.defaultValue search negate a b s s2

theorem bind_out {α β : Type} {m : M α} {f : α → M β} {s : St} {g : α → Except Err β}
    (h : ∀ a s', m s = (.ok a, s') → (f a s').1 = g a) : ((m >>= f) s).1 = ((m s).1 >>= g) := by
  rw [M.bind_apply]
  rcases e : m s with ⟨x, t⟩
  cases x with
  | error e => rfl
  | ok a => exact h a t e

theorem lift_bind_out {α β : Type} {x : Except Err α} {f : α → M β} {s : St} {g : α → Except Err β}
    (h : ∀ a, x = .ok a → (f a s).1 = g a) : ((M.lift x >>= f) s).1 = (x >>= g) := by
  cases x with
  | error e => rfl
  | ok a => exact h a rfl

theorem bin_out {env : Env} {op : BinOp} {l r : M Value} {s : St}
    (hr : ∀ a s', l s = (.ok a, s') → (r s').1 = (r s).1) :
    (evalBin env env.decCtx op l r s).1 = op.on env (l s).1 (r s).1 := by
  have key : ∀ {f : Value → M Value} {g : Value → Except Err Value} {s' : St}, (r s').1 = (r s).1 →
      (∀ b t, (f b t).1 = g b) → ((r >>= f) s').1 = ((r s).1 >>= g) := by
    intro f g s' h1 h2
    rw [← h1]
    exact bind_out fun b t _ => h2 b t
  cases op with
  | add => exact bind_out fun a s' h => key (hr a s' h) fun b t => rfl
  | sub => exact bind_out fun a s' h => key (hr a s' h) fun b t => rfl
  | eq => exact bind_out fun a s' h => key (hr a s' h) fun b t => rfl
  | ne => exact bind_out fun a s' h => key (hr a s' h) fun b t => rfl
  | cmp c => exact bind_out fun a s' h => key (hr a s' h) fun b t => lift_bind_out fun _ _ => rfl
  | arith c =>
    exact bind_out fun a s' h => lift_bind_out fun _ _ => key (hr a s' h) fun b t => lift_bind_out fun _ _ => rfl
  | and =>
    refine bind_out fun a s' h => ?_
    rw [M.ite_app]
    split
    · exact key (hr a s' h) fun b t => rfl
    · rfl
  | or =>
    refine bind_out fun a s' h => ?_
    rw [M.ite_app]
    split
    · rfl
    · exact key (hr a s' h) fun b t => rfl
  | bit c | shift c =>
    refine bind_out fun a s' h => lift_bind_out fun t ht => ?_
    rw [M.ite_app]
    split
    · exact lift_bind_out fun _ _ => key (hr a s' h) fun b t => rfl
    · cases a <;> first | exact key (hr _ s' h) fun b t => rfl | rfl
  | fuzzy c d =>
    refine bind_out fun a s' h => ?_
    cases a <;> first | exact key (hr _ s' h) fun b t => opFuzzy_out _ _ | rfl

theorem eval_scopes (env : Env) (dc : DecCtx) (thing : Value) (e : Expr) (s : St) :
    (eval env dc thing e s).2.scopes = s.scopes := by
  obtain ⟨sc, g, sy, lg⟩ := s
  obtain ⟨x, l, h⟩ := eval_framed env dc thing e sc g
  rw [h sy lg]

/-- the same outcome from any state with the same variables -/
def Steady (m : M Value) (s : St) : Prop := ∀ s', s'.scopes = s.scopes → (m s').1 = (m s).1

theorem Steady.after {env : Env} {dc : DecCtx} {thing : Value} {l : Expr} {r : M Value} {s s' : St} {a : Value}
    (hr : Steady r s) (h : eval env dc thing l s = (.ok a, s')) : (r s').1 = (r s).1 := by
  have := eval_scopes env dc thing l s
  rw [h] at this
  exact hr s' this

theorem Steady.step {env : Env} {dc : DecCtx} {thing : Value} {l : Expr} {r : M Value} {s s' : St} {a : Value}
    (hr : Steady r s) (h : eval env dc thing l s = (.ok a, s')) : Steady r s' := by
  have := eval_scopes env dc thing l s
  rw [h] at this
  intro s2 h2
  exact (hr s2 (h2.trans this)).trans (hr s' this).symm

theorem steady_part {codec : LitCodec} {env : Env} {dct : DecCtx} {t : List Char} {e : Expr}
    (ht : Part codec env dct t e) (hg : NoGroups codec t) (dc : DecCtx) (thing : Value) (s : St) :
    Steady (eval env dc thing e) s := fun s' h => (noGroups_sameOut ht hg dc thing).out s' s h

theorem contains_out {env : Env} {c m : Expr} {thing : Value} {s : St} (hm : Steady (eval env env.decCtx thing m) s) :
    (eval env env.decCtx thing (.contains c m) s).1 =
      containsOn env (eval env env.decCtx thing c s).1 (eval env env.decCtx thing m s).1 := by
  simp only [eval]
  refine bind_out fun a s' h => lift_bind_out fun t ht => ?_
  rw [← hm.after h]
  exact bind_out fun b t _ => lift_bind_out fun _ _ => rfl

theorem item_out {env : Env} {c i : Expr} {safe : Bool} {thing : Value} {s : St}
    (hi : Steady (eval env env.decCtx thing i) s) :
    (eval env env.decCtx thing (.getItem c i safe) s).1 =
      itemOn env safe (eval env env.decCtx thing c s).1 (eval env env.decCtx thing i s).1 := by
  simp only [eval]
  refine bind_out fun a s' h => ?_
  rw [M.ite_app]
  split
  · cases safe <;> rfl
  · rw [← hi.after h]
    refine bind_out fun b t _ => lift_bind_out fun o _ => ?_
    cases o with
    | some v => rfl
    | none => cases safe <;> rfl

theorem slice_out {env : Env} {c i j : Expr} {safe : Bool} {thing : Value} {s : St}
    (hi : Steady (eval env env.decCtx thing i) s) (hj : Steady (eval env env.decCtx thing j) s) :
    (eval env env.decCtx thing (.getSlice c i j safe) s).1 =
      sliceOn env safe (eval env env.decCtx thing c s).1 (eval env env.decCtx thing i s).1
        (eval env env.decCtx thing j s).1 := by
  simp only [eval]
  refine bind_out fun a s' h => ?_
  rw [M.ite_app]
  split
  · cases safe <;> rfl
  · rw [← hi.after h]
    refine bind_out fun b t hb => lift_bind_out fun o _ => ?_
    rw [← hj.after h, ← (hj.step h).after hb]
    exact bind_out fun b t _ => lift_bind_out fun o _ => lift_bind_out fun o _ => rfl

theorem tern_out {env : Env} {c i j : Expr} {thing : Value} {s : St}
    (hi : Steady (eval env env.decCtx thing i) s) (hj : Steady (eval env env.decCtx thing j) s) :
    (eval env env.decCtx thing (.tern c i j) s).1 =
      ternOn (eval env env.decCtx thing c s).1 (eval env env.decCtx thing i s).1 (eval env env.decCtx thing j s).1 := by
  simp only [eval]
  refine bind_out fun a s' h => ?_
  rw [M.ite_app, ← hi.after h, ← hj.after h]
  split <;> rfl

theorem array_out {env : Env} {thing : Value} : ∀ {es : List Expr} {s : St},
    (∀ e ∈ es, Steady (eval env env.decCtx thing e) s) →
    (seqM (evals env env.decCtx thing es) s).1 = arrayOn (es.map fun e => (eval env env.decCtx thing e s).1)
  | [], s, _ => rfl
  | e :: es, s, h => by
    simp only [evals, seqM, List.map_cons, arrayOn]
    refine bind_out fun a s' ha => ?_
    have h1 : ∀ e ∈ es, Steady (eval env env.decCtx thing e) s' := fun x hx => (h x (List.mem_cons_of_mem _ hx)).step ha
    have h2 : (es.map fun e => (eval env env.decCtx thing e s).1) = es.map fun e => (eval env env.decCtx thing e s').1 :=
      List.map_congr_left fun x hx => ((h x (List.mem_cons_of_mem _ hx)).after ha).symm
    rw [h2, ← array_out h1]
    exact bind_out fun vs t _ => rfl

/-! ### The theorems -/

theorem operator_of_rules {codec : LitCodec} {env : Env} {a b : List Char} {l r e : Expr}
    (ha : Part codec env env.decCtx a l) (hb : Part codec env env.decCtx b r) (hg : NoGroups codec b) (k : Kind)
    (hk : k ∈ binaryKinds) (acts : List TextAct)
    (h : outcome codec env env.decCtx acts (par a ++ ' ' :: (spelling k ++ ' ' :: par b)) = .ok e) (thing : Value)
    (p : Proc) :
    (p.evaluate env e thing).1 = (meaning k).on env (p.evaluate env l thing).1 (p.evaluate env r thing).1 := by
  obtain ⟨ra, hma, hba⟩ := ha.build
  obtain ⟨rb, hmb, hbb⟩ := hb.build
  obtain ⟨s, hs, ho⟩ := outcome_of (env := env) (dct := env.decCtx) (acts := acts) (means_bin hma hmb k hk)
  obtain ⟨s1, h1, hs1⟩ := hba s hs
  obtain ⟨s2, h2, hs2⟩ := hbb s1 hs1
  rw [ho] at h
  simp only [RE.build] at h
  rw [bind_ok' h1, bind_ok' h2] at h
  simp only [Proc.evaluate, ruleEval]
  have hnode : (eval env env.decCtx thing (.bin (meaning k) l r) p.st.reset).1 =
      (meaning k).on env (eval env env.decCtx thing l p.st.reset).1 (eval env env.decCtx thing r p.st.reset).1 := by
    simp only [eval]
    exact bin_out fun a s' h => (steady_part hb hg env.decCtx thing _).after h
  rw [← hnode]
  unfold mkBin at h
  rcases hc : (meaning k).check env l r with err | u
  · rw [hc] at h; cases h
  rw [hc, lift_ok_bind, M.ite_app] at h
  by_cases hr : (l.reduced && r.reduced) = true
  · rw [if_pos hr] at h
    rcases hf : foldLit env env.decCtx (.bin (meaning k) l r) s2 with ⟨x, s3⟩
    rw [hf] at h
    simp only at h
    subst h
    rw [Bool.and_eq_true] at hr
    refine foldLit_out hf ?_ ?_ _ _ _ _ _
    · exact (show (Expr.bin (meaning k) l r).allNames _ _ from by
        simp only [Expr.allNames]; exact ⟨reduced_noNames hr.1, reduced_noNames hr.2⟩)
    · simp only [eval]
      exact evalBin_literal (ha.gives hr.1 _ _) (hb.gives hr.2 _ _)
  · rw [if_neg hr] at h
    cases h
    rfl

/-- **C68.** `(a) in (b)` from what the rules `a` and `b` give; the container is evaluated first. -/
theorem in_of_rules {codec : LitCodec} {env : Env} {a b : List Char} {l r e : Expr}
    (ha : Part codec env env.decCtx a l) (hb : Part codec env env.decCtx b r) (hg : NoGroups codec a)
    (acts : List TextAct)
    (h : outcome codec env env.decCtx acts (par a ++ " in ".toList ++ par b) = .ok e) (thing : Value)
    (p : Proc) :
    (p.evaluate env e thing).1 = containsOn env (p.evaluate env r thing).1 (p.evaluate env l thing).1 := by
  obtain ⟨ra, hma, hba⟩ := ha.build
  obtain ⟨rb, hmb, hbb⟩ := hb.build
  obtain ⟨s, hs, ho⟩ := outcome_of (env := env) (dct := env.decCtx) (acts := acts) (means_in hma hmb)
  obtain ⟨s1, h1, hs1⟩ := hbb s hs
  obtain ⟨s2, h2, hs2⟩ := hba s1 hs1
  rw [ho] at h
  simp only [RE.build] at h
  rw [bind_ok' h1, bind_ok' h2] at h
  simp only [Proc.evaluate, ruleEval]
  rw [← contains_out (steady_part ha hg env.decCtx thing _)]
  unfold mkContains at h
  rcases hc : checkContains r.rt l.rt with err | u
  · rw [hc] at h; cases h
  rw [hc, lift_ok_bind, M.ite_app] at h
  by_cases hr : (r.reduced && l.reduced) = true
  · rw [if_pos hr] at h
    rw [Bool.and_eq_true] at hr
    rcases hf : eval env env.decCtx .none (.contains r l) s2 with ⟨x, s3⟩
    cases x with
    | error err => rw [bind_err' hf] at h; cases h
    | ok v =>
      rw [bind_ok' hf] at h
      cases h
      have hn : (Expr.contains r l).NoNames := by
        unfold Expr.NoNames
        simp only [Expr.allNames]; exact ⟨reduced_noNames hr.1, reduced_noNames hr.2⟩
      rw [← noNames_out hn env.decCtx .none thing s2, hf]
      rfl
  · rw [if_neg hr] at h
    cases h
    rfl

/-- **C68.** `(a)[b]` and `(a)&[b]` from what the rules `a` and `b` give; the safe form with a constant item that is
missing from a constant container is left out. -/
theorem item_of_rules {codec : LitCodec} {env : Env} {a b : List Char} {l r e : Expr}
    (ha : Part codec env env.decCtx a l) (hb : Part codec env env.decCtx b r) (hg : NoGroups codec b) (safe : Bool)
    (hm : staticMiss l.rt r.rt safe = false) (acts : List TextAct)
    (h : outcome codec env env.decCtx acts (par a ++ ((if safe then "&[" else "[").toList ++ (b ++ [']']))) = .ok e)
    (thing : Value) (p : Proc) :
    (p.evaluate env e thing).1 = itemOn env safe (p.evaluate env l thing).1 (p.evaluate env r thing).1 := by
  obtain ⟨ra, hma, hba⟩ := ha.build
  obtain ⟨rb, hmb, hbb⟩ := hb.build
  obtain ⟨s, hs, ho⟩ := outcome_of (env := env) (dct := env.decCtx) (acts := acts) (means_item hma hmb safe)
  obtain ⟨s1, h1, hs1⟩ := hba s hs
  obtain ⟨s2, h2, hs2⟩ := hbb s1 hs1
  rw [ho] at h
  simp only [RE.build] at h
  rw [bind_ok' h1, bind_ok' h2] at h
  simp only [Proc.evaluate, ruleEval]
  rw [← item_out (steady_part hb hg env.decCtx thing _)]
  unfold mkGetItem at h
  rcases hc : checkItem l.rt r.rt safe with err | u
  · rw [hc] at h; cases h
  rw [hc, lift_ok_bind, hm, M.ite_app, if_neg (by decide), M.ite_app] at h
  by_cases hr : (l.reduced && r.reduced) = true
  · rw [if_pos hr] at h
    rcases hf : foldLit env env.decCtx (.getItem l r safe) s2 with ⟨x, s3⟩
    rw [hf] at h
    simp only at h
    subst h
    rw [Bool.and_eq_true] at hr
    refine foldLit_out hf ?_ ?_ _ _ _ _ _
    · exact (show (Expr.getItem l r safe).allNames _ _ from by
        simp only [Expr.allNames]; exact ⟨reduced_noNames hr.1, reduced_noNames hr.2⟩)
    · intro s v s' hv
      simp only [eval, M.bind_eq_ok] at hv
      obtain ⟨c, s4, h4, hv⟩ := hv
      rw [M.ite_app] at hv
      split at hv
      · cases safe
        · cases hv
        · cases hv; trivial
      · simp only [M.bind_eq_ok, M.lift_eq_ok] at hv
        obtain ⟨i, s5, h5, o, s6, ⟨h6, -⟩, hv⟩ := hv
        cases o with
        | some w =>
          cases hv
          exact itemOf_literal (ha.gives hr.1 _ _ _ _ _ h4) (opGetItem_itemOf h6)
        | none =>
          cases safe
          · cases hv
          · cases hv; trivial
  · rw [if_neg hr] at h
    cases h
    rfl

/-- **C68.** `(a)[b:c]` and `(a)&[b:c]` from what the three rules give. -/
theorem slice_of_rules {codec : LitCodec} {env : Env} {a b c : List Char} {l i j e : Expr}
    (ha : Part codec env env.decCtx a l) (hb : Part codec env env.decCtx b i) (hc : Part codec env env.decCtx c j)
    (hg : NoGroups codec b) (hg' : NoGroups codec c) (safe : Bool) (acts : List TextAct)
    (h : outcome codec env env.decCtx acts (par a ++ ((if safe then "&[" else "[").toList ++ (b ++ (':' :: (c ++ [']']))))) =
      .ok e) (thing : Value) (p : Proc) :
    (p.evaluate env e thing).1 =
      sliceOn env safe (p.evaluate env l thing).1 (p.evaluate env i thing).1 (p.evaluate env j thing).1 := by
  obtain ⟨ra, hma, hba⟩ := ha.build
  obtain ⟨rb, hmb, hbb⟩ := hb.build
  obtain ⟨rc, hmc, hbc⟩ := hc.build
  obtain ⟨s, hs, ho⟩ := outcome_of (env := env) (dct := env.decCtx) (acts := acts) (means_slice hma hmb hmc safe)
  obtain ⟨s1, h1, hs1⟩ := hbb s hs
  obtain ⟨s2, h2, hs2⟩ := hbc s1 hs1
  obtain ⟨s3, h3, hs3⟩ := hba s2 hs2
  rw [ho] at h
  simp only [RE.build] at h
  rw [bind_ok' h1, bind_ok' h2, bind_ok' h3] at h
  simp only [Proc.evaluate, ruleEval]
  rw [← slice_out (steady_part hb hg env.decCtx thing _) (steady_part hc hg' env.decCtx thing _)]
  unfold mkGetSlice at h
  rcases hch : checkSlice l.rt safe with err | u
  · rw [hch] at h; cases h
  rw [hch, lift_ok_bind, M.ite_app] at h
  by_cases hr : (l.reduced && i.reduced && j.reduced) = true
  · rw [if_pos hr] at h
    rcases hf : foldLit env env.decCtx (.getSlice l i j safe) s3 with ⟨x, s4⟩
    rw [hf] at h
    simp only at h
    subst h
    simp only [Bool.and_eq_true] at hr
    refine foldLit_out hf ?_ ?_ _ _ _ _ _
    · exact (show (Expr.getSlice l i j safe).allNames _ _ from by
        simp only [Expr.allNames]; exact ⟨reduced_noNames hr.1.1, reduced_noNames hr.1.2, reduced_noNames hr.2⟩)
    · intro s v s' hv
      simp only [eval, M.bind_eq_ok] at hv
      obtain ⟨c, s4, h4, hv⟩ := hv
      rw [M.ite_app] at hv
      split at hv
      · cases safe
        · cases hv
        · cases hv; trivial
      · simp only [evalSlice, M.bind_eq_ok, M.lift_eq_ok, M.pure_eq_ok] at hv
        obtain ⟨_, _, _, _, _, ⟨_, _⟩, _, _, _, _, _, ⟨_, _⟩, w, _, ⟨h6, _⟩, rfl, _⟩ := hv
        have := slice_literal (ha.gives hr.1.1 _ _ _ _ _ h4) h6
        rw [coerce_literal w this]
        exact this
  · rw [if_neg hr] at h
    cases h
    rfl

/-- **C68.** `not (a)` from what the rule `a` gives. -/
theorem not_of_rule {codec : LitCodec} {env : Env} {dct : DecCtx} {a : List Char} {l e : Expr}
    (ha : Part codec env dct a l) (acts : List TextAct)
    (h : outcome codec env dct acts ("not ".toList ++ par a) = .ok e) (thing : Value) (p : Proc) :
    (p.evaluate env e thing).1 = (p.evaluate env l thing).1.map fun v => .bool (!v.truthy) := by
  obtain ⟨ra, hma, hba⟩ := ha.build
  obtain ⟨s, hs, ho⟩ := outcome_of (env := env) (dct := dct) (acts := acts) (means_not hma)
  obtain ⟨s1, h1, hs1⟩ := hba s hs
  rw [ho] at h
  rcases hb : build env dct (.not ra) s with ⟨x, s2⟩
  rw [hb] at h
  simp only at h
  subst h
  obtain ⟨l', hl', he, -, -⟩ := makes_not ⟨s, s2, hs, hb⟩
  cases makes_unique hl' ⟨s, s1, hs, h1⟩
  simp only [Proc.evaluate, ruleEval, he, eval]
  exact congrArg Prod.fst (asNot_apply (eval env env.decCtx thing l) p.st.reset)

/-- **C68.** `-(a)` from what the rule `a` gives. -/
theorem neg_of_rule {codec : LitCodec} {env : Env} {a : List Char} {l e : Expr}
    (ha : Part codec env env.decCtx a l) (acts : List TextAct)
    (h : outcome codec env env.decCtx acts ('-' :: par a) = .ok e) (thing : Value) (p : Proc) :
    (p.evaluate env e thing).1 = ((p.evaluate env l thing).1 >>= opNeg env.decCtx) := by
  obtain ⟨ra, hma, hba⟩ := ha.build
  obtain ⟨s, hs, ho⟩ := outcome_of (env := env) (dct := env.decCtx) (acts := acts) (means_neg hma)
  obtain ⟨s1, h1, hs1⟩ := hba s hs
  rw [ho] at h
  simp only [RE.build] at h
  rw [bind_ok' h1] at h
  simp only [Proc.evaluate, ruleEval]
  have hnode : ∀ thing s, (eval env env.decCtx thing (.neg l) s).1 = ((eval env env.decCtx thing l s).1 >>= opNeg env.decCtx) := by
    intro thing s
    simp only [eval]
    exact bind_out fun a s' h => rfl
  rw [← hnode]
  unfold mkNeg at h
  rw [M.ite_app] at h
  by_cases hr : l.reduced = true
  · rw [if_pos hr] at h
    have hn : (Expr.neg l).NoNames := by
      unfold Expr.NoNames
      simp only [Expr.allNames]; exact reduced_noNames hr
    have key : ∀ t, ((eval env env.decCtx .none (.neg l) >>= fun v => pure (.lit v t)) s1).1 = .ok e →
        (eval env env.decCtx thing e p.st.reset).1 = (eval env env.decCtx thing (.neg l) p.st.reset).1 := by
      intro t ht
      rcases hf : eval env env.decCtx .none (.neg l) s1 with ⟨x, s3⟩
      cases x with
      | error err => rw [bind_err' hf] at ht; cases ht
      | ok v =>
        rw [bind_ok' hf] at ht
        cases ht
        rw [← noNames_out hn env.decCtx .none thing s1, hf]
        rfl
    cases l with
    | lit w t =>
      cases t <;> first | exact key _ h | cases h
    | _ => cases h
  · rw [if_neg hr] at h
    cases h
    rfl

/-- **C68.** `(a) ? (b) : (c)` is what `b` or what `c` gives, as `a` gives a true or a false value. -/
theorem tern_of_rules {codec : LitCodec} {env : Env} {dct : DecCtx} {a b c : List Char} {l i j e : Expr}
    (ha : Part codec env dct a l) (hb : Part codec env dct b i) (hc : Part codec env dct c j)
    (hg : NoGroups codec b) (hg' : NoGroups codec c) (acts : List TextAct)
    (h : outcome codec env dct acts (par a ++ " ? ".toList ++ par b ++ " : ".toList ++ par c) = .ok e)
    (thing : Value) (p : Proc)
    (hv : l.reduced = true → ∃ v, (p.evaluate env l thing).1 = .ok v) :
    (p.evaluate env e thing).1 =
      ternOn (p.evaluate env l thing).1 (p.evaluate env i thing).1 (p.evaluate env j thing).1 := by
  obtain ⟨ra, hma, hba⟩ := ha.build
  obtain ⟨rb, hmb, hbb⟩ := hb.build
  obtain ⟨rc, hmc, hbc⟩ := hc.build
  obtain ⟨s, hs, ho⟩ := outcome_of (env := env) (dct := dct) (acts := acts) (means_tern hma hmb hmc)
  obtain ⟨s1, h1, hs1⟩ := hba s hs
  obtain ⟨s2, h2, hs2⟩ := hbb s1 hs1
  obtain ⟨s3, h3, hs3⟩ := hbc s2 hs2
  rw [ho] at h
  simp only [RE.build] at h
  rw [bind_ok' h1, bind_ok' h2, bind_ok' h3] at h
  cases h
  simp only [Proc.evaluate, ruleEval] at hv ⊢
  rw [eval_mkTern (e := l)]
  · rw [← tern_out (steady_part hb hg env.decCtx thing _) (steady_part hc hg' env.decCtx thing _)]
    simp only [eval]
  · intro hr
    obtain ⟨v, hv⟩ := hv hr
    obtain ⟨x, hx⟩ := reduced_const env l hr
    rw [hx] at hv
    cases hv
    exact ⟨v, fun dc thing => hx dc thing⟩

/-- **C68.** `[a, b, …]` is the array of what the rules `a`, `b`, … give, or the first of their exceptions. -/
theorem array_of_rules {codec : LitCodec} {env : Env} {dct : DecCtx} {ts : List (List Char)} {es : List Expr} {e : Expr}
    (hp : List.Forall₂ (Part codec env dct) ts es) (hg : ∀ t ∈ ts, NoGroups codec t) (acts : List TextAct)
    (h : outcome codec env dct acts ('[' :: (commas ts ++ [']'])) = .ok e) (thing : Value) (p : Proc) :
    (p.evaluate env e thing).1 = (arrayOn (es.map fun e => (p.evaluate env e thing).1)).map .tuple := by
  obtain ⟨rs, hms, hbs⟩ := parts_build hp
  obtain ⟨s, hs, ho⟩ := outcome_of (env := env) (dct := dct) (acts := acts) (means_array hms)
  obtain ⟨s1, h1, hs1⟩ := hbs s hs
  rw [ho] at h
  simp only [RE.build] at h
  rw [bind_ok' h1] at h
  cases h
  have hst : ∀ e ∈ es, Steady (eval env env.decCtx thing e) p.st.reset := by
    clear ho h1 hbs hms hs hs1
    induction hp with
    | nil => simp
    | cons h hs ih =>
      intro e he
      rcases List.mem_cons.1 he with rfl | he
      · exact steady_part h (hg _ (by simp)) _ _ _
      · exact ih (fun t ht => hg t (List.mem_cons_of_mem _ ht)) e he
  simp only [Proc.evaluate, ruleEval, eval]
  rw [← array_out hst, M.bind_apply]
  rcases seqM (evals env env.decCtx thing es) p.st.reset with ⟨x | x, s3⟩ <;> rfl

/-! ### Replacing parts -/

theorem part_of_makes {codec : LitCodec} {env : Env} {dct : DecCtx} {t : List Char} {raw : Raw} {e : Expr}
    (hm : Means codec t raw) (h : Makes env dct raw e) : Part codec env dct t e := by
  obtain ⟨s', h1, -⟩ := makes_anywhere h St.init rfl
  exact ⟨⟨raw, hm⟩, [], (rule_of_means hm).trans (by rw [h1])⟩

theorem Part.makes {codec : LitCodec} {env : Env} {dct : DecCtx} {t : List Char} {raw : Raw} {e : Expr}
    (h : Part codec env dct t e) (hm : Means codec t raw) : Makes env dct raw e := by
  obtain ⟨-, acts, h⟩ := h
  exact rule_makes hm h

theorem Part.unique {codec : LitCodec} {env : Env} {dct : DecCtx} {t : List Char} {e e' : Expr}
    (h : Part codec env dct t e) (h' : Part codec env dct t e') : e = e' := by
  obtain ⟨raw, hm⟩ := h.1
  exact makes_unique (h.makes hm) (h'.makes hm)

theorem Part.outcome {codec : LitCodec} {env : Env} {dct : DecCtx} {t : List Char} {e : Expr}
    (h : Part codec env dct t e) : ∃ acts, RE.outcome codec env dct acts t = .ok e := by
  obtain ⟨-, acts, h⟩ := h
  exact ⟨acts, h⟩

/-- the parts of an accepted rule are accepted rules -/
theorem parts_bin {env : Env} {dct : DecCtx} {op : BinOp} {a b : Raw} {e : Expr} (h : Makes env dct (.bin op a b) e) :
    ∃ l r, Makes env dct a l ∧ Makes env dct b r := by
  obtain ⟨s, s', hs, h⟩ := h
  simp only [build, M.bind_eq_ok] at h
  obtain ⟨l, s1, h1, r, s2, h2, -⟩ := h
  exact ⟨l, r, ⟨s, s1, hs, h1⟩, ⟨s1, s2, (build_scopes h1).trans hs, h2⟩⟩

theorem parts_contains {env : Env} {dct : DecCtx} {a b : Raw} {e : Expr} (h : Makes env dct (.contains a b) e) :
    ∃ l r, Makes env dct a l ∧ Makes env dct b r := by
  obtain ⟨s, s', hs, h⟩ := h
  simp only [build, M.bind_eq_ok] at h
  obtain ⟨l, s1, h1, r, s2, h2, -⟩ := h
  exact ⟨l, r, ⟨s, s1, hs, h1⟩, ⟨s1, s2, (build_scopes h1).trans hs, h2⟩⟩

theorem parts_item {env : Env} {dct : DecCtx} {a b : Raw} {safe : Bool} {e : Expr} (h : Makes env dct (.getItem a b safe) e) :
    ∃ l r, Makes env dct a l ∧ Makes env dct b r := by
  obtain ⟨s, s', hs, h⟩ := h
  simp only [build, M.bind_eq_ok] at h
  obtain ⟨l, s1, h1, r, s2, h2, -⟩ := h
  exact ⟨l, r, ⟨s, s1, hs, h1⟩, ⟨s1, s2, (build_scopes h1).trans hs, h2⟩⟩

theorem parts_slice {env : Env} {dct : DecCtx} {a b c : Raw} {safe : Bool} {e : Expr}
    (h : Makes env dct (.getSlice a b c safe) e) :
    ∃ l i j, Makes env dct a l ∧ Makes env dct b i ∧ Makes env dct c j := by
  obtain ⟨s, s', hs, h⟩ := h
  simp only [build, M.bind_eq_ok] at h
  obtain ⟨i, s1, h1, j, s2, h2, l, s3, h3, -⟩ := h
  exact ⟨l, i, j, ⟨s2, s3, (build_scopes h2).trans ((build_scopes h1).trans hs), h3⟩, ⟨s, s1, hs, h1⟩,
    ⟨s1, s2, (build_scopes h1).trans hs, h2⟩⟩

theorem parts_neg {env : Env} {dct : DecCtx} {a : Raw} {e : Expr} (h : Makes env dct (.neg a) e) :
    ∃ l, Makes env dct a l := by
  obtain ⟨s, s', hs, h⟩ := h
  simp only [build, M.bind_eq_ok] at h
  obtain ⟨l, s1, h1, -⟩ := h
  exact ⟨l, ⟨s, s1, hs, h1⟩⟩

theorem parts_list {env : Env} {dct : DecCtx} : ∀ {rs : List Raw} {es : List Expr} {s s' : St}, s.scopes = [] →
    buildList env dct rs s = (.ok es, s') → List.Forall₂ (Makes env dct) rs es
  | [], es, s, s', hs, h => by
    simp only [buildList, M.pure_eq_ok] at h
    rw [← h.1]
    exact .nil
  | r :: rs, es, s, s', hs, h => by
    simp only [buildList, M.bind_eq_ok, M.pure_eq_ok] at h
    obtain ⟨e, s1, h1, es', s2, h2, rfl, -⟩ := h
    exact .cons ⟨s, s1, hs, h1⟩ (parts_list ((build_scopes h1).trans hs) h2)

theorem parts_array {env : Env} {dct : DecCtx} {rs : List Raw} {e : Expr} (h : Makes env dct (.array rs) e) :
    ∃ es, List.Forall₂ (Makes env dct) rs es := by
  obtain ⟨s, s', hs, h⟩ := h
  simp only [build, M.bind_eq_ok] at h
  obtain ⟨es, s1, h1, -⟩ := h
  exact ⟨es, parts_list hs h1⟩

/-- The two rules give the same value or raise the same exception for the thing. -/
def SameOn (codec : LitCodec) (env : Env) (thing : Value) (t u : List Char) : Prop :=
  ∀ (e e' : Expr) (p : Proc), Part codec env env.decCtx t e → Part codec env env.decCtx u e' →
    (p.evaluate env e thing).1 = (p.evaluate env e' thing).1

/-- If the rule is a constant, it can be evaluated. -/
def ConstGives (codec : LitCodec) (env : Env) (thing : Value) (t : List Char) : Prop :=
  ∀ (e : Expr) (p : Proc), Part codec env env.decCtx t e → e.reduced = true → ∃ v, (p.evaluate env e thing).1 = .ok v

/-- **Specification.** The second text is the first one with parts replaced by others that give the same for the thing;
`$re_groups` is not used. -/
inductive Alike (codec : LitCodec) (env : Env) (thing : Value) : List Char → List Char → Prop
  | part {t u : List Char} (ht : NoGroups codec t) (hu : NoGroups codec u) (h : SameOn codec env thing t u) :
    Alike codec env thing t u
  | operator {a b a' b' : List Char} (k : Kind) (hk : k ∈ binaryKinds) (ha : Alike codec env thing a a')
    (hb : Alike codec env thing b b') :
    Alike codec env thing (par a ++ ' ' :: (spelling k ++ ' ' :: par b)) (par a' ++ ' ' :: (spelling k ++ ' ' :: par b'))
  | contains {a b a' b' : List Char} (ha : Alike codec env thing a a') (hb : Alike codec env thing b b') :
    Alike codec env thing (par a ++ " in ".toList ++ par b) (par a' ++ " in ".toList ++ par b')
  | item {a b a' b' : List Char} (ha : Alike codec env thing a a') (hb : Alike codec env thing b b') :
    Alike codec env thing (par a ++ ("[".toList ++ (b ++ [']']))) (par a' ++ ("[".toList ++ (b' ++ [']'])))
  | slice {a b c a' b' c' : List Char} (safe : Bool) (ha : Alike codec env thing a a') (hb : Alike codec env thing b b')
    (hc : Alike codec env thing c c') :
    Alike codec env thing (par a ++ ((if safe then "&[" else "[").toList ++ (b ++ (':' :: (c ++ [']'])))))
      (par a' ++ ((if safe then "&[" else "[").toList ++ (b' ++ (':' :: (c' ++ [']'])))))
  | negation {a a' : List Char} (ha : Alike codec env thing a a') :
    Alike codec env thing ("not ".toList ++ par a) ("not ".toList ++ par a')
  | minus {a a' : List Char} (ha : Alike codec env thing a a') : Alike codec env thing ('-' :: par a) ('-' :: par a')
  | conditional {a b c a' b' c' : List Char} (ha : Alike codec env thing a a') (hb : Alike codec env thing b b')
    (hc : Alike codec env thing c c') (hv : ConstGives codec env thing a) (hv' : ConstGives codec env thing a') :
    Alike codec env thing (par a ++ " ? ".toList ++ par b ++ " : ".toList ++ par c)
      (par a' ++ " ? ".toList ++ par b' ++ " : ".toList ++ par c')
  | array {ts us : List (List Char)} (hl : ts.length = us.length)
    (h : ∀ (i : Nat) t u, ts[i]? = some t → us[i]? = some u → Alike codec env thing t u) :
    Alike codec env thing ('[' :: (commas ts ++ [']'])) ('[' :: (commas us ++ [']']))

theorem noGroups_list {codec : LitCodec} : ∀ {ts : List (List Char)}, (∀ t ∈ ts, NoGroups codec t) →
    ∃ rs, List.Forall₂ (Means codec) ts rs ∧ ∀ u ∈ Raw.usesList [] rs, ¬ (u.dollar = true ∧ u.name = "re_groups")
  | [], _ => ⟨[], .nil, by simp [Raw.usesList]⟩
  | t :: ts, h => by
    obtain ⟨r, hr, hu⟩ := h t (by simp)
    obtain ⟨rs, hrs, hus⟩ := noGroups_list (fun x hx => h x (List.mem_cons_of_mem t hx))
    refine ⟨r :: rs, .cons hr hrs, ?_⟩
    simp only [Raw.usesList, List.mem_append, or_imp, forall_and]
    exact ⟨hu, hus⟩

theorem noGroups_bin {codec : LitCodec} {a b : List Char} (ha : NoGroups codec a) (hb : NoGroups codec b) (k : Kind)
    (hk : k ∈ binaryKinds) : NoGroups codec (par a ++ ' ' :: (spelling k ++ ' ' :: par b)) := by
  obtain ⟨ra, hma, hua⟩ := ha
  obtain ⟨rb, hmb, hub⟩ := hb
  refine ⟨_, means_bin hma hmb k hk, ?_⟩
  simp only [Raw.uses, List.mem_append, or_imp, forall_and]
  exact ⟨hua, hub⟩

theorem noGroups_in {codec : LitCodec} {a b : List Char} (ha : NoGroups codec a) (hb : NoGroups codec b) :
    NoGroups codec (par a ++ " in ".toList ++ par b) := by
  obtain ⟨ra, hma, hua⟩ := ha
  obtain ⟨rb, hmb, hub⟩ := hb
  refine ⟨_, means_in hma hmb, ?_⟩
  simp only [Raw.uses, List.mem_append, or_imp, forall_and]
  exact ⟨hub, hua⟩

theorem noGroups_item {codec : LitCodec} {a b : List Char} (ha : NoGroups codec a) (hb : NoGroups codec b) (safe : Bool) :
    NoGroups codec (par a ++ ((if safe then "&[" else "[").toList ++ (b ++ [']']))) := by
  obtain ⟨ra, hma, hua⟩ := ha
  obtain ⟨rb, hmb, hub⟩ := hb
  refine ⟨_, means_item hma hmb safe, ?_⟩
  simp only [Raw.uses, List.mem_append, or_imp, forall_and]
  exact ⟨hua, hub⟩

theorem noGroups_slice {codec : LitCodec} {a b c : List Char} (ha : NoGroups codec a) (hb : NoGroups codec b)
    (hc : NoGroups codec c) (safe : Bool) :
    NoGroups codec (par a ++ ((if safe then "&[" else "[").toList ++ (b ++ (':' :: (c ++ [']']))))) := by
  obtain ⟨ra, hma, hua⟩ := ha
  obtain ⟨rb, hmb, hub⟩ := hb
  obtain ⟨rc, hmc, huc⟩ := hc
  refine ⟨_, means_slice hma hmb hmc safe, ?_⟩
  simp only [Raw.uses, List.mem_append, or_imp, forall_and]
  exact ⟨hua, hub, huc⟩

theorem noGroups_not {codec : LitCodec} {a : List Char} (ha : NoGroups codec a) :
    NoGroups codec ("not ".toList ++ par a) := by
  obtain ⟨ra, hma, hua⟩ := ha
  exact ⟨_, means_not hma, by simpa only [Raw.uses] using hua⟩

theorem noGroups_neg {codec : LitCodec} {a : List Char} (ha : NoGroups codec a) : NoGroups codec ('-' :: par a) := by
  obtain ⟨ra, hma, hua⟩ := ha
  exact ⟨_, means_neg hma, by simpa only [Raw.uses] using hua⟩

theorem noGroups_tern {codec : LitCodec} {a b c : List Char} (ha : NoGroups codec a) (hb : NoGroups codec b)
    (hc : NoGroups codec c) : NoGroups codec (par a ++ " ? ".toList ++ par b ++ " : ".toList ++ par c) := by
  obtain ⟨ra, hma, hua⟩ := ha
  obtain ⟨rb, hmb, hub⟩ := hb
  obtain ⟨rc, hmc, huc⟩ := hc
  refine ⟨_, means_tern hma hmb hmc, ?_⟩
  simp only [Raw.uses, List.mem_append, or_imp, forall_and]
  exact ⟨hua, hub, huc⟩

theorem noGroups_array {codec : LitCodec} {ts : List (List Char)} (h : ∀ t ∈ ts, NoGroups codec t) :
    NoGroups codec ('[' :: (commas ts ++ [']'])) := by
  obtain ⟨rs, h1, h2⟩ := noGroups_list h
  exact ⟨_, means_array h1, by simpa only [Raw.uses] using h2⟩

theorem Alike.noGroups {codec : LitCodec} {env : Env} {thing : Value} {t u : List Char}
    (h : Alike codec env thing t u) : NoGroups codec t ∧ NoGroups codec u := by
  induction h with
  | part ht hu h => exact ⟨ht, hu⟩
  | operator k hk ha hb iha ihb => exact ⟨noGroups_bin iha.1 ihb.1 k hk, noGroups_bin iha.2 ihb.2 k hk⟩
  | contains ha hb iha ihb => exact ⟨noGroups_in iha.1 ihb.1, noGroups_in iha.2 ihb.2⟩
  | item ha hb iha ihb => exact ⟨noGroups_item iha.1 ihb.1 false, noGroups_item iha.2 ihb.2 false⟩
  | slice safe ha hb hc iha ihb ihc =>
    exact ⟨noGroups_slice iha.1 ihb.1 ihc.1 safe, noGroups_slice iha.2 ihb.2 ihc.2 safe⟩
  | negation ha iha => exact ⟨noGroups_not iha.1, noGroups_not iha.2⟩
  | minus ha iha => exact ⟨noGroups_neg iha.1, noGroups_neg iha.2⟩
  | conditional ha hb hc hv hv' iha ihb ihc =>
    exact ⟨noGroups_tern iha.1 ihb.1 ihc.1, noGroups_tern iha.2 ihb.2 ihc.2⟩
  | @array ts us hl h ih =>
    constructor
    · refine noGroups_array fun t ht => ?_
      obtain ⟨i, hi, rfl⟩ := List.mem_iff_getElem.1 ht
      exact (ih i _ _ (List.getElem?_eq_getElem hi) (List.getElem?_eq_getElem (hl ▸ hi))).1
    · refine noGroups_array fun t ht => ?_
      obtain ⟨i, hi, rfl⟩ := List.mem_iff_getElem.1 ht
      exact (ih i _ _ (List.getElem?_eq_getElem (hl ▸ hi)) (List.getElem?_eq_getElem hi)).2

theorem Part.split_bin {codec : LitCodec} {env : Env} {dct : DecCtx} {a b : List Char} {e : Expr} {k : Kind}
    (hk : k ∈ binaryKinds) (ha : NoGroups codec a) (hb : NoGroups codec b)
    (h : Part codec env dct (par a ++ ' ' :: (spelling k ++ ' ' :: par b)) e) :
    ∃ l r, Part codec env dct a l ∧ Part codec env dct b r := by
  obtain ⟨ra, hma, -⟩ := ha
  obtain ⟨rb, hmb, -⟩ := hb
  obtain ⟨l, r, h1, h2⟩ := parts_bin (h.makes (means_bin hma hmb k hk))
  exact ⟨l, r, part_of_makes hma h1, part_of_makes hmb h2⟩

theorem Part.split_in {codec : LitCodec} {env : Env} {dct : DecCtx} {a b : List Char} {e : Expr}
    (ha : NoGroups codec a) (hb : NoGroups codec b) (h : Part codec env dct (par a ++ " in ".toList ++ par b) e) :
    ∃ l r, Part codec env dct a l ∧ Part codec env dct b r := by
  obtain ⟨ra, hma, -⟩ := ha
  obtain ⟨rb, hmb, -⟩ := hb
  obtain ⟨l, r, h1, h2⟩ := parts_contains (h.makes (means_in hma hmb))
  exact ⟨r, l, part_of_makes hma h2, part_of_makes hmb h1⟩

theorem Part.split_item {codec : LitCodec} {env : Env} {dct : DecCtx} {a b : List Char} {e : Expr} {safe : Bool}
    (ha : NoGroups codec a) (hb : NoGroups codec b)
    (h : Part codec env dct (par a ++ ((if safe then "&[" else "[").toList ++ (b ++ [']']))) e) :
    ∃ l r, Part codec env dct a l ∧ Part codec env dct b r := by
  obtain ⟨ra, hma, -⟩ := ha
  obtain ⟨rb, hmb, -⟩ := hb
  obtain ⟨l, r, h1, h2⟩ := parts_item (h.makes (means_item hma hmb safe))
  exact ⟨l, r, part_of_makes hma h1, part_of_makes hmb h2⟩

theorem Part.split_slice {codec : LitCodec} {env : Env} {dct : DecCtx} {a b c : List Char} {e : Expr} {safe : Bool}
    (ha : NoGroups codec a) (hb : NoGroups codec b) (hc : NoGroups codec c)
    (h : Part codec env dct (par a ++ ((if safe then "&[" else "[").toList ++ (b ++ (':' :: (c ++ [']']))))) e) :
    ∃ l i j, Part codec env dct a l ∧ Part codec env dct b i ∧ Part codec env dct c j := by
  obtain ⟨ra, hma, -⟩ := ha
  obtain ⟨rb, hmb, -⟩ := hb
  obtain ⟨rc, hmc, -⟩ := hc
  obtain ⟨l, i, j, h1, h2, h3⟩ := parts_slice (h.makes (means_slice hma hmb hmc safe))
  exact ⟨l, i, j, part_of_makes hma h1, part_of_makes hmb h2, part_of_makes hmc h3⟩

theorem Part.split_tern {codec : LitCodec} {env : Env} {dct : DecCtx} {a b c : List Char} {e : Expr}
    (ha : NoGroups codec a) (hb : NoGroups codec b) (hc : NoGroups codec c)
    (h : Part codec env dct (par a ++ " ? ".toList ++ par b ++ " : ".toList ++ par c) e) :
    ∃ l i j, Part codec env dct a l ∧ Part codec env dct b i ∧ Part codec env dct c j := by
  obtain ⟨ra, hma, -⟩ := ha
  obtain ⟨rb, hmb, -⟩ := hb
  obtain ⟨rc, hmc, -⟩ := hc
  obtain ⟨l, i, j, h1, h2, h3, -⟩ := makes_tern (h.makes (means_tern hma hmb hmc))
  exact ⟨l, i, j, part_of_makes hma h1, part_of_makes hmb h2, part_of_makes hmc h3⟩

theorem Part.split_not {codec : LitCodec} {env : Env} {dct : DecCtx} {a : List Char} {e : Expr}
    (ha : NoGroups codec a) (h : Part codec env dct ("not ".toList ++ par a) e) : ∃ l, Part codec env dct a l := by
  obtain ⟨ra, hma, -⟩ := ha
  obtain ⟨l, h1, -⟩ := makes_not (h.makes (means_not hma))
  exact ⟨l, part_of_makes hma h1⟩

theorem Part.split_neg {codec : LitCodec} {env : Env} {dct : DecCtx} {a : List Char} {e : Expr}
    (ha : NoGroups codec a) (h : Part codec env dct ('-' :: par a) e) : ∃ l, Part codec env dct a l := by
  obtain ⟨ra, hma, -⟩ := ha
  obtain ⟨l, h1⟩ := parts_neg (h.makes (means_neg hma))
  exact ⟨l, part_of_makes hma h1⟩

theorem forall₂_parts {codec : LitCodec} {env : Env} {dct : DecCtx} : ∀ {ts : List (List Char)} {rs : List Raw}
    {es : List Expr}, List.Forall₂ (Means codec) ts rs → List.Forall₂ (Makes env dct) rs es →
    List.Forall₂ (Part codec env dct) ts es
  | _, _, _, .nil, .nil => .nil
  | _, _, _, .cons h hs, .cons h' hs' => .cons (part_of_makes h h') (forall₂_parts hs hs')

theorem Part.split_array {codec : LitCodec} {env : Env} {dct : DecCtx} {ts : List (List Char)} {e : Expr}
    (ha : ∀ t ∈ ts, NoGroups codec t) (h : Part codec env dct ('[' :: (commas ts ++ [']'])) e) :
    ∃ es, List.Forall₂ (Part codec env dct) ts es := by
  obtain ⟨rs, h1, h2⟩ := noGroups_list ha
  obtain ⟨es, h3⟩ := parts_array (h.makes (means_array h1))
  exact ⟨es, forall₂_parts h1 h3⟩

theorem forall₂_map {codec : LitCodec} {env : Env} {dct : DecCtx} {α : Type} {f : Expr → α} : ∀ {ts us : List (List Char)}
    {es es' : List Expr}, List.Forall₂ (Part codec env dct) ts es → List.Forall₂ (Part codec env dct) us es' →
    ts.length = us.length →
    (∀ (i : Nat) t u, ts[i]? = some t → us[i]? = some u → ∀ e e', Part codec env dct t e → Part codec env dct u e' → f e = f e') →
    es.map f = es'.map f
  | _, _, _, _, .nil, .nil, _, _ => rfl
  | _, _, _, _, .cons h hs, .cons h' hs', hl, hf => by
    simp only [List.map_cons]
    rw [hf 0 _ _ rfl rfl _ _ h h', forall₂_map hs hs' (by simpa using hl) fun i t u h1 h2 => hf (i + 1) t u h1 h2]
  | _, _, _, _, .nil, .cons .., hl, _ => by simp at hl
  | _, _, _, _, .cons .., .nil, hl, _ => by simp at hl

/-- **C68.** Replacing parts of a rule by others that give the same for a thing: if both rules are accepted, they give
the same value or raise the same exception for that thing. -/
theorem replace_parts {codec : LitCodec} {env : Env} {thing : Value} {t u : List Char}
    (h : Alike codec env thing t u) : SameOn codec env thing t u := by
  induction h with
  | part ht hu h => exact h
  | operator k hk ha hb iha ihb =>
    intro e e' p h1 h2
    obtain ⟨l, r, hl, hr⟩ := h1.split_bin hk ha.noGroups.1 hb.noGroups.1
    obtain ⟨l', r', hl', hr'⟩ := h2.split_bin hk ha.noGroups.2 hb.noGroups.2
    obtain ⟨acts, h1⟩ := h1.outcome
    obtain ⟨acts', h2⟩ := h2.outcome
    rw [operator_of_rules hl hr hb.noGroups.1 k hk acts h1, operator_of_rules hl' hr' hb.noGroups.2 k hk acts' h2,
      iha _ _ p hl hl', ihb _ _ p hr hr']
  | contains ha hb iha ihb =>
    intro e e' p h1 h2
    obtain ⟨l, r, hl, hr⟩ := h1.split_in ha.noGroups.1 hb.noGroups.1
    obtain ⟨l', r', hl', hr'⟩ := h2.split_in ha.noGroups.2 hb.noGroups.2
    obtain ⟨acts, h1⟩ := h1.outcome
    obtain ⟨acts', h2⟩ := h2.outcome
    rw [in_of_rules hl hr ha.noGroups.1 acts h1, in_of_rules hl' hr' ha.noGroups.2 acts' h2,
      iha _ _ p hl hl', ihb _ _ p hr hr']
  | item ha hb iha ihb =>
    intro e e' p h1 h2
    obtain ⟨l, r, hl, hr⟩ := Part.split_item (safe := false) ha.noGroups.1 hb.noGroups.1 h1
    obtain ⟨l', r', hl', hr'⟩ := Part.split_item (safe := false) ha.noGroups.2 hb.noGroups.2 h2
    obtain ⟨acts, h1⟩ := h1.outcome
    obtain ⟨acts', h2⟩ := h2.outcome
    rw [item_of_rules hl hr hb.noGroups.1 false (notSafe_noMiss _ _) acts h1,
      item_of_rules hl' hr' hb.noGroups.2 false (notSafe_noMiss _ _) acts' h2,
      iha _ _ p hl hl', ihb _ _ p hr hr']
  | slice safe ha hb hc iha ihb ihc =>
    intro e e' p h1 h2
    obtain ⟨l, i, j, hl, hi, hj⟩ := h1.split_slice ha.noGroups.1 hb.noGroups.1 hc.noGroups.1
    obtain ⟨l', i', j', hl', hi', hj'⟩ := h2.split_slice ha.noGroups.2 hb.noGroups.2 hc.noGroups.2
    obtain ⟨acts, h1⟩ := h1.outcome
    obtain ⟨acts', h2⟩ := h2.outcome
    rw [slice_of_rules hl hi hj hb.noGroups.1 hc.noGroups.1 safe acts h1,
      slice_of_rules hl' hi' hj' hb.noGroups.2 hc.noGroups.2 safe acts' h2,
      iha _ _ p hl hl', ihb _ _ p hi hi', ihc _ _ p hj hj']
  | negation ha iha =>
    intro e e' p h1 h2
    obtain ⟨l, hl⟩ := h1.split_not ha.noGroups.1
    obtain ⟨l', hl'⟩ := h2.split_not ha.noGroups.2
    obtain ⟨acts, h1⟩ := h1.outcome
    obtain ⟨acts', h2⟩ := h2.outcome
    rw [not_of_rule hl acts h1, not_of_rule hl' acts' h2, iha _ _ p hl hl']
  | minus ha iha =>
    intro e e' p h1 h2
    obtain ⟨l, hl⟩ := h1.split_neg ha.noGroups.1
    obtain ⟨l', hl'⟩ := h2.split_neg ha.noGroups.2
    obtain ⟨acts, h1⟩ := h1.outcome
    obtain ⟨acts', h2⟩ := h2.outcome
    rw [neg_of_rule hl acts h1, neg_of_rule hl' acts' h2, iha _ _ p hl hl']
  | conditional ha hb hc hv hv' iha ihb ihc =>
    intro e e' p h1 h2
    obtain ⟨l, i, j, hl, hi, hj⟩ := h1.split_tern ha.noGroups.1 hb.noGroups.1 hc.noGroups.1
    obtain ⟨l', i', j', hl', hi', hj'⟩ := h2.split_tern ha.noGroups.2 hb.noGroups.2 hc.noGroups.2
    obtain ⟨acts, h1⟩ := h1.outcome
    obtain ⟨acts', h2⟩ := h2.outcome
    rw [tern_of_rules hl hi hj hb.noGroups.1 hc.noGroups.1 acts h1 thing p (hv l p hl),
      tern_of_rules hl' hi' hj' hb.noGroups.2 hc.noGroups.2 acts' h2 thing p (hv' l' p hl'),
      iha _ _ p hl hl', ihb _ _ p hi hi', ihc _ _ p hj hj']
  | @array ts us hlen h ih =>
    intro e e' p h1 h2
    have hg1 : ∀ t ∈ ts, NoGroups codec t := by
      intro t ht
      obtain ⟨i, hi, rfl⟩ := List.mem_iff_getElem.1 ht
      exact (h i _ _ (List.getElem?_eq_getElem hi) (List.getElem?_eq_getElem (hlen ▸ hi))).noGroups.1
    have hg2 : ∀ t ∈ us, NoGroups codec t := by
      intro t ht
      obtain ⟨i, hi, rfl⟩ := List.mem_iff_getElem.1 ht
      exact (h i _ _ (List.getElem?_eq_getElem (hlen ▸ hi)) (List.getElem?_eq_getElem hi)).noGroups.2
    obtain ⟨es, hes⟩ := h1.split_array hg1
    obtain ⟨es', hes'⟩ := h2.split_array hg2
    obtain ⟨acts, h1⟩ := h1.outcome
    obtain ⟨acts', h2⟩ := h2.outcome
    rw [array_of_rules hes hg1 acts h1, array_of_rules hes' hg2 acts' h2]
    rw [forall₂_map (f := fun e => (p.evaluate env e thing).1) hes hes' hlen fun i t u h1 h2 e e' he he' =>
      ih i t u h1 h2 e e' p he he']

/-! ### The hypotheses are met, and needed -/

/-- A rule with a name in it, from its parts, and its values for two things. -/
example (codec : LitCodec) : ∃ l r e,
    Part codec sampleEnv sampleEnv.decCtx ['x'] l ∧ Part codec sampleEnv sampleEnv.decCtx ['1'] r ∧
    NoGroups codec ['1'] ∧
    outcome codec sampleEnv sampleEnv.decCtx [] (par ['x'] ++ ' ' :: (spelling .SUB ++ ' ' :: par ['1'])) = .ok e ∧
    (Proc.new.evaluate sampleEnv e (dictOf [("x", .dec (.ofInt 3))])).1 = .ok (.dec (.ofInt 2)) ∧
    (Proc.new.evaluate sampleEnv e (dictOf [])).1 = .error (.eng (.symbolResolution "x")) := by
  have hx : Means codec ['x'] (.sym "x" false) := means_sym x_word
  have h1 : Means codec ['1'] (.floatLit "1") := means_number one_number
  refine ⟨_, _, _, ⟨⟨_, hx⟩, [], (rule_of_means hx).trans rfl⟩, ⟨⟨_, h1⟩, [], (rule_of_means h1).trans rfl⟩,
    ⟨_, h1, by simp [Raw.uses]⟩, (rule_of_means (means_bin hx h1 .SUB (by decide))).trans rfl, ?_, ?_⟩ <;> decide +kernel

/-- `x` and `y` give the same for a thing that has the same under both names, so `(x) - (1)` and `(y) - (1)` do. -/
example (codec : LitCodec) :
    Alike codec sampleEnv (dictOf [("x", .dec (.ofInt 3)), ("y", .dec (.ofInt 3))])
      (par ['x'] ++ ' ' :: (spelling .SUB ++ ' ' :: par ['1'])) (par ['y'] ++ ' ' :: (spelling .SUB ++ ' ' :: par ['1'])) := by
  have hx : Means codec ['x'] (.sym "x" false) := means_sym x_word
  have hy : Means codec ['y'] (.sym "y" false) := means_sym ⟨by decide, by decide⟩
  have h1 : Means codec ['1'] (.floatLit "1") := means_number one_number
  refine .operator .SUB (by decide) (.part ⟨_, hx, by simp [Raw.uses]⟩ ⟨_, hy, by simp [Raw.uses]⟩ ?_)
    (.part ⟨_, h1, by simp [Raw.uses]⟩ ⟨_, h1, by simp [Raw.uses]⟩ ?_)
  · intro e e' p he he'
    cases Part.unique he ⟨⟨_, hx⟩, [], (rule_of_means hx).trans rfl⟩
    cases Part.unique he' ⟨⟨_, hy⟩, [], (rule_of_means hy).trans rfl⟩
    simp only [Proc.evaluate, ruleEval, eval]
    rw [evalSymbol_free (by rfl), evalSymbol_free (by rfl)]
    decide +kernel
  · intro e e' p he he'
    cases Part.unique he he'
    rfl

/-- `$re_groups` is different: `$re_groups` alone is null, but after a match it holds the groups. -/
theorem groups_matter (codec : LitCodec) : ∃ l r e,
    Part codec sampleEnv sampleEnv.decCtx (par ['x'] ++ ' ' :: (spelling .EQ_FZM ++ ' ' :: par ['y'])) l ∧
    Part codec sampleEnv sampleEnv.decCtx "$re_groups".toList r ∧
    outcome codec sampleEnv sampleEnv.decCtx [] (par (par ['x'] ++ ' ' :: (spelling .EQ_FZM ++ ' ' :: par ['y'])) ++
      ' ' :: (spelling .AND ++ ' ' :: par "$re_groups".toList)) = .ok e ∧
    (Proc.new.evaluate sampleEnv e (dictOf [("x", .str "ab"), ("y", .str "a")])).1 ≠
      (meaning .AND).on sampleEnv (Proc.new.evaluate sampleEnv l (dictOf [("x", .str "ab"), ("y", .str "a")])).1
        (Proc.new.evaluate sampleEnv r (dictOf [("x", .str "ab"), ("y", .str "a")])).1 := by
  have hx : Means codec ['x'] (.sym "x" false) := means_sym x_word
  have hy : Means codec ['y'] (.sym "y" false) := means_sym ⟨by decide, by decide⟩
  have hg : Means codec "$re_groups".toList (.sym "re_groups" true) :=
    means_sym (n := "$re_groups".toList) ⟨by decide, by decide⟩
  have hm := means_bin hx hy .EQ_FZM (by decide)
  refine ⟨_, _, _, ⟨⟨_, hm⟩, [], (rule_of_means hm).trans rfl⟩, ⟨⟨_, hg⟩, [], (rule_of_means hg).trans rfl⟩,
    (rule_of_means (means_bin hm hg .AND (by decide))).trans rfl, ?_⟩
  decide +kernel

end RE
