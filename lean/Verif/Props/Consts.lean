import Verif.Props.MapFilter

/-!
# The values of constants

What is written or folded as a constant can be turned into a literal and evaluates to itself again.
-/

set_option linter.unusedSimpArgs false
set_option linter.unusedVariables false

namespace RE

mutual
/-- scalars, functions bound to a value, tuples, and sets and ordered dictionaries as Python makes
them (members and keys hashable and pairwise unequal) -/
def Value.Literal (off : TzDb) : Value → Prop
  | .none | .bool _ | .dec _ | .str _ | .bytes _ | .datetime .. | .timedelta _ | .method .. | .builtinFn _ | .userFn _ => True
  | .seq .tuple xs => Value.AllLiteral off xs
  | .set xs => Value.AllLiteral off xs ∧ (∀ x ∈ xs, x.hashable = true) ∧
      xs.Pairwise (fun a b => pyEq off a b = false)
  | .map .ordered kvs => Value.PairsLiteral off kvs ∧ (∀ p ∈ kvs, p.1.hashable = true) ∧
      kvs.Pairwise (fun p q => pyEq off p.1 q.1 = false)
  | _ => False
def Value.AllLiteral (off : TzDb) : List Value → Prop
  | [] => True
  | x :: xs => x.Literal off ∧ Value.AllLiteral off xs
def Value.PairsLiteral (off : TzDb) : List (Value × Value) → Prop
  | [] => True
  | (k, v) :: rest => k.Literal off ∧ v.Literal off ∧ Value.PairsLiteral off rest
end

theorem allLiteral_iff {off : TzDb} {xs : List Value} :
    Value.AllLiteral off xs ↔ ∀ x ∈ xs, x.Literal off := by
  induction xs with
  | nil => simp [Value.AllLiteral]
  | cons a t ih => simp [Value.AllLiteral, ih]

theorem pairsLiteral_iff {off : TzDb} {kvs : List (Value × Value)} :
    Value.PairsLiteral off kvs ↔ ∀ p ∈ kvs, p.1.Literal off ∧ p.2.Literal off := by
  induction kvs with
  | nil => simp [Value.PairsLiteral]
  | cons a t ih => obtain ⟨k, v⟩ := a; simp [Value.PairsLiteral, ih, and_assoc]

mutual
theorem literal_clean {off : TzDb} : ∀ v : Value, v.Literal off → v.Clean
  | .seq k xs, h => by
    cases k <;> simp only [Value.Literal] at h
    simp only [Value.Clean]; exact literals_clean xs h
  | .set xs, h => by
    simp only [Value.Literal] at h
    simp only [Value.Clean]; exact literals_clean xs h.1
  | .map k kvs, h => by
    cases k <;> simp only [Value.Literal] at h
    simp only [Value.Clean]; exact literalp_clean kvs h.1 h.2.1
  | .none, _ | .bool _, _ | .int _, _ | .float _, _ | .dec _, _ | .str _, _ | .bytes _, _
  | .date _, _ | .datetime .., _ | .timedelta _, _ | .builtinFn _, _ | .userFn _, _ | .method .., _ => by
    simp [Value.Clean]
  | .obj _, h | .undef, h => by simp [Value.Literal] at h
theorem literals_clean {off : TzDb} : ∀ xs : List Value, Value.AllLiteral off xs → Value.AllClean xs
  | [], _ => trivial
  | x :: xs, h => ⟨literal_clean x h.1, literals_clean xs h.2⟩
theorem literalp_clean {off : TzDb} : ∀ kvs : List (Value × Value), Value.PairsLiteral off kvs →
    (∀ p ∈ kvs, p.1.hashable = true) → Value.PairsClean kvs
  | [], _, _ => trivial
  | (k, v) :: kvs, h, hh => ⟨hashable_keyable (hh (k, v) List.mem_cons_self), literal_clean k h.1,
      literal_clean v h.2.1, literalp_clean kvs h.2.2 fun p hp => hh p (List.mem_cons_of_mem _ hp)⟩
end

mutual
theorem coerce_literal {off : TzDb} : ∀ v : Value, v.Literal off → coerce off v = v
  | .seq k xs, h => by
    cases k <;> simp only [Value.Literal] at h
    simp only [coerce]; rw [coerces_literal xs h]
  | .map k kvs, h => by
    cases k <;> simp only [Value.Literal] at h
    simp only [coerce]
    rw [coercep_literal kvs h.1, mapOfList_distinct off kvs h.2.2]
  | .set _, _ | .none, _ | .bool _, _ | .dec _, _ | .str _, _ | .bytes _, _
  | .datetime .., _ | .timedelta _, _ | .method .., _ | .builtinFn _, _ | .userFn _, _ => by simp only [coerce]
  | .int _, h | .float _, h | .date _, h   | .obj _, h | .undef, h => by simp [Value.Literal] at h
theorem coerces_literal {off : TzDb} : ∀ xs : List Value, Value.AllLiteral off xs →
    coerceList off xs = xs
  | [], _ => rfl
  | x :: xs, h => by simp only [coerceList]; rw [coerce_literal x h.1, coerces_literal xs h.2]
theorem coercep_literal {off : TzDb} : ∀ kvs : List (Value × Value), Value.PairsLiteral off kvs →
    coercePairs off kvs = kvs
  | [], _ => rfl
  | (k, v) :: kvs, h => by
    simp only [coercePairs]
    rw [coerce_literal k h.1, coerce_literal v h.2.1, coercep_literal kvs h.2.2]
end

theorem mapKeysM_pures_literal {off : TzDb} : ∀ {kvs : List (Value × Value)} {acc : List (Value × M Value)},
    (∀ p ∈ kvs, p.1.Literal off) → (∀ p ∈ kvs, p.1.hashable = true) →
    ((acc.map (·.1)) ++ kvs.map (·.1)).Pairwise (fun a b => pyEq off a b = false) →
    mapKeysM off acc (kvs.map fun p => ((pure p.1 : M Value), (pure p.2 : M Value))) =
      pure (acc ++ kvs.map fun p => (p.1, (pure p.2 : M Value)))
  | [], acc, _, _, _ => by simp [mapKeysM]
  | (k, v) :: kvs, acc, hc, hh, hp => by
    obtain ⟨t, ht⟩ := clean_typed k (literal_clean k (hc (k, v) List.mem_cons_self))
    have hk := keyable_type (hashable_keyable (hh (k, v) List.mem_cons_self)) ht
    have hx : ∀ p ∈ acc, pyEq off p.1 k = false := by
      intro p hy
      rw [List.pairwise_append] at hp
      exact hp.2.2 p.1 (List.mem_map.2 ⟨p, hy, rfl⟩) k List.mem_cons_self
    simp only [List.map_cons, mapKeysM, pure_bind]
    rw [ht]
    have e : ∀ {β : Type} (f : DataType → M β), (M.lift (.ok t) >>= f) = f t := fun f => rfl
    rw [e, hk, if_neg (by simp), if_pos (hh (k, v) List.mem_cons_self), mapInsert_append off acc k _ hx,
      mapKeysM_pures_literal (fun p hp => hc p (List.mem_cons_of_mem _ hp))
        (fun p hp => hh p (List.mem_cons_of_mem _ hp)) (by simpa using hp)]
    simp

mutual
/-- the literal made of a literal value evaluates to that value -/
theorem eval_ofValue_literal (env : Env) (dc : DecCtx) (thing : Value) : ∀ v : Value,
    v.Literal env.utcoffset → eval env dc thing (Expr.ofValue env.utcoffset v) = pure v
  | .seq k xs, h => by
    cases k <;> simp only [Value.Literal] at h
    simp only [Expr.ofValue, eval]
    rw [evals_ofValues_literal env dc thing xs h, seqM_pures]
    simp only [pure_bind]
  | .set xs, h => by
    simp only [Value.Literal] at h
    simp only [Expr.ofValue, eval]
    rw [evals_ofValues_literal env dc thing xs h.1, setM_pures h.2.1 (by simpa using h.2.2)]
    simp only [pure_bind, List.nil_append]
  | .map k kvs, h => by
    cases k <;> simp only [Value.Literal] at h
    simp only [Expr.ofValue, eval]
    rw [evalPairs_ofPairs_literal env dc thing kvs h.1, mapKeysM_pures_literal
      (fun p hp => (pairsLiteral_iff.1 h.1 p hp).1) h.2.1
      (by simpa [List.pairwise_map] using h.2.2)]
    simp only [pure_bind, List.nil_append, mapValsM_pures]
  | .none, _ | .bool _, _ | .dec _, _ | .str _, _ | .bytes _, _
  | .datetime .., _ | .timedelta _, _ | .method .., _ | .builtinFn _, _ | .userFn _, _ => by simp only [Expr.ofValue, eval, coerce]
  | .int _, h | .float _, h | .date _, h   | .obj _, h | .undef, h => by simp [Value.Literal] at h
theorem evals_ofValues_literal (env : Env) (dc : DecCtx) (thing : Value) : ∀ xs : List Value,
    Value.AllLiteral env.utcoffset xs →
    evals env dc thing (Expr.ofValues env.utcoffset xs) = xs.map fun x => (pure x : M Value)
  | [], _ => rfl
  | x :: xs, h => by
    simp only [Expr.ofValues, evals, List.map_cons]
    rw [eval_ofValue_literal env dc thing x h.1, evals_ofValues_literal env dc thing xs h.2]
theorem evalPairs_ofPairs_literal (env : Env) (dc : DecCtx) (thing : Value) : ∀ kvs : List (Value × Value),
    Value.PairsLiteral env.utcoffset kvs →
    evalPairs env dc thing (Expr.ofPairs env.utcoffset kvs) =
      kvs.map fun p => ((pure p.1 : M Value), (pure p.2 : M Value))
  | [], _ => rfl
  | (k, v) :: kvs, h => by
    simp only [Expr.ofPairs, evalPairs, List.map_cons]
    rw [eval_ofValue_literal env dc thing k h.1, eval_ofValue_literal env dc thing v h.2.1,
      evalPairs_ofPairs_literal env dc thing kvs h.2.2]
end

theorem setAdd_literal {off : TzDb} {acc : List Value} {v : Value} (ha : (Value.set acc).Literal off)
    (hv : v.Literal off) (hh : v.hashable = true) : (Value.set (setAdd off acc v)).Literal off := by
  unfold setAdd
  split
  · exact ha
  · rename_i hn
    simp only [Value.Literal, allLiteral_iff] at ha ⊢
    refine ⟨?_, ?_, ?_⟩
    · intro x hx
      rcases List.mem_append.1 hx with hx | hx
      · exact ha.1 x hx
      · rw [List.mem_singleton] at hx; rw [hx]; exact hv
    · intro x hx
      rcases List.mem_append.1 hx with hx | hx
      · exact ha.2.1 x hx
      · rw [List.mem_singleton] at hx; rw [hx]; exact hh
    · rw [List.pairwise_append]
      refine ⟨ha.2.2, by simp, ?_⟩
      intro a haa b hb
      rw [List.mem_singleton] at hb
      subst hb
      simp only [List.any_eq_true, not_exists, not_and] at hn
      simpa using hn a haa

theorem setM_gives_literal {off : TzDb} : ∀ {ms : List (M Value)} {acc : List Value} {s s' : St}
    {vs : List Value}, (∀ m ∈ ms, Gives (Value.Literal off) m) → (Value.set acc).Literal off →
    setM off acc ms s = (.ok vs, s') → (Value.set vs).Literal off
  | [], acc, s, s', vs, _, ha, h => by
    simp only [setM, M.pure_eq_ok] at h
    obtain ⟨rfl, rfl⟩ := h
    exact ha
  | m :: ms, acc, s, s', vs, hm, ha, h => by
    simp only [setM, M.bind_eq_ok] at h
    obtain ⟨v, s1, h1, h2⟩ := h
    split at h2
    · rename_i hh
      exact setM_gives_literal (fun m hmm => hm m (List.mem_cons_of_mem _ hmm))
        (setAdd_literal ha (hm m List.mem_cons_self _ _ _ h1) hh) h2
    · simp at h2

/-- keys as in a literal dictionary, values that evaluate to literal values -/
def AccLit (off : TzDb) (acc : List (Value × M Value)) : Prop :=
  (∀ p ∈ acc, p.1.Literal off ∧ p.1.hashable = true ∧ Gives (Value.Literal off) p.2) ∧
    acc.Pairwise (fun p q => pyEq off p.1 q.1 = false)

theorem mapInsert_accLit {off : TzDb} {k : Value} {m : M Value} (hk : k.Literal off)
    (hh : k.hashable = true) (hm : Gives (Value.Literal off) m) :
    ∀ {acc : List (Value × M Value)}, AccLit off acc → AccLit off (mapInsert off acc k m)
  | [], _ => by
    refine ⟨?_, by simp [mapInsert]⟩
    intro p hp
    simp only [mapInsert, List.mem_singleton] at hp
    rw [hp]; exact ⟨hk, hh, hm⟩
  | (k', m') :: acc, ⟨h1, h2⟩ => by
    rw [List.pairwise_cons] at h2
    simp only [mapInsert]
    split
    · refine ⟨?_, ?_⟩
      · intro p hp
        rcases List.mem_cons.1 hp with hp | hp
        · rw [hp]
          have := h1 _ List.mem_cons_self
          exact ⟨this.1, this.2.1, hm⟩
        · exact h1 p (List.mem_cons_of_mem _ hp)
      · rw [List.pairwise_cons]; exact h2
    · rename_i hne
      have ih := mapInsert_accLit hk hh hm (acc := acc)
        ⟨fun p hp => h1 p (List.mem_cons_of_mem _ hp), h2.2⟩
      refine ⟨?_, ?_⟩
      · intro p hp
        rcases List.mem_cons.1 hp with hp | hp
        · rw [hp]; exact h1 _ List.mem_cons_self
        · exact ih.1 p hp
      · rw [List.pairwise_cons]
        refine ⟨?_, ih.2⟩
        intro q hq
        rcases mapInsert_key q hq with h | ⟨p, hp, h⟩
        · rw [h]; simpa using hne
        · rw [← h]; exact h2.1 p hp

theorem mapKeysM_gives_literal {off : TzDb} : ∀ {ms : List (M Value × M Value)} {acc : List (Value × M Value)}
    {s s' : St} {ks : List (Value × M Value)},
    (∀ p ∈ ms, Gives (Value.Literal off) p.1 ∧ Gives (Value.Literal off) p.2) → AccLit off acc →
    mapKeysM off acc ms s = (.ok ks, s') → AccLit off ks
  | [], acc, s, s', ks, _, ha, h => by
    simp only [mapKeysM, M.pure_eq_ok] at h
    obtain ⟨rfl, rfl⟩ := h
    exact ha
  | (k, m) :: ms, acc, s, s', ks, hm, ha, h => by
    simp only [mapKeysM, M.bind_eq_ok, M.lift_eq_ok] at h
    obtain ⟨v, s1, h1, t, s2, ⟨_, rfl⟩, h2⟩ := h
    have h0 := hm _ List.mem_cons_self
    split at h2
    · simp at h2
    · split at h2
      · rename_i hh
        exact mapKeysM_gives_literal (fun p hp => hm p (List.mem_cons_of_mem _ hp))
          (mapInsert_accLit (h0.1 _ _ _ h1) hh h0.2 ha) h2
      · simp at h2

theorem mapValsM_gives_literal {off : TzDb} : ∀ {ks : List (Value × M Value)} {s s' : St}
    {items : List (Value × Value)}, AccLit off ks → mapValsM ks s = (.ok items, s') →
    items.map (·.1) = ks.map (·.1) ∧ ∀ p ∈ items, p.1.Literal off ∧ p.1.hashable = true ∧ p.2.Literal off
  | [], s, s', items, _, h => by
    simp only [mapValsM, M.pure_eq_ok] at h
    obtain ⟨rfl, rfl⟩ := h
    simp
  | (k, m) :: ks, s, s', items, ha, h => by
    simp only [mapValsM, M.bind_eq_ok, M.pure_eq_ok] at h
    obtain ⟨v, s1, h1, vs, s2, h2, rfl, rfl⟩ := h
    obtain ⟨ha1, ha2⟩ := ha
    rw [List.pairwise_cons] at ha2
    have ⟨i1, i2⟩ := mapValsM_gives_literal ⟨fun p hp => ha1 p (List.mem_cons_of_mem _ hp), ha2.2⟩ h2
    have h0 := ha1 _ List.mem_cons_self
    refine ⟨by simp [i1], ?_⟩
    intro p hp
    rcases List.mem_cons.1 hp with hp | hp
    · rw [hp]; exact ⟨h0.1, h0.2.1, h0.2.2 _ _ _ h1⟩
    · exact i2 p hp

theorem mapping_gives_literal {off : TzDb} {ms : List (M Value × M Value)}
    (hm : ∀ p ∈ ms, Gives (Value.Literal off) p.1 ∧ Gives (Value.Literal off) p.2) :
    Gives (Value.Literal off) (do
      let ks ← mapKeysM off [] ms
      let items ← mapValsM ks
      pure (.map .ordered items)) := by
  intro s v s' h
  simp only [M.bind_eq_ok, M.pure_eq_ok] at h
  obtain ⟨ks, s1, h1, items, s2, h2, rfl, rfl⟩ := h
  have ha := mapKeysM_gives_literal hm ⟨by simp, List.Pairwise.nil⟩ h1
  have ⟨i1, i2⟩ := mapValsM_gives_literal ha h2
  simp only [Value.Literal]
  refine ⟨pairsLiteral_iff.2 fun p hp => ⟨(i2 p hp).1, (i2 p hp).2.2⟩, fun p hp => (i2 p hp).2.1, ?_⟩
  have h3 : (ks.map (·.1)).Pairwise (fun a b => pyEq off a b = false) := by
    rw [List.pairwise_map]; exact ha.2
  rw [← i1, List.pairwise_map] at h3
  exact h3


/-! ### Constants of a rule -/

/-- what a literal node holds: no collection (those are nodes of their own), no raw Python number, no foreign object -/
def Value.isAtom : Value → Bool
  | .none | .bool _ | .dec _ | .str _ | .bytes _ | .datetime .. | .timedelta _ | .method .. | .builtinFn _ | .userFn _ => true
  | _ => false

mutual
/-- the literal nodes of a constant hold atoms -/
def Expr.AtomLits : Expr → Prop
  | .lit v _ => v.isAtom = true
  | .array xs => Expr.AtomList xs
  | .set xs => Expr.AtomList xs
  | .mapping kvs => Expr.AtomPairs kvs
  | _ => True
def Expr.AtomList : List Expr → Prop
  | [] => True
  | x :: xs => x.AtomLits ∧ Expr.AtomList xs
def Expr.AtomPairs : List (Expr × Expr) → Prop
  | [] => True
  | (k, v) :: xs => k.AtomLits ∧ v.AtomLits ∧ Expr.AtomPairs xs
end

theorem atom_literal {off : TzDb} {v : Value} (h : v.isAtom = true) : v.Literal off := by
  cases v <;> simp [Value.isAtom] at h <;> trivial

mutual
theorem ofValue_atoms (off : TzDb) : ∀ (v : Value) (t : DataType), fromValue v = .ok t → (Expr.ofValue off v).AtomLits
  | .seq _ xs, t, h => by
    simp only [fromValue, except_bind_ok] at h
    obtain ⟨ts, hts, -⟩ := h
    exact ofValues_atoms off xs ts hts
  | .set xs, t, h => by
    simp only [fromValue, except_bind_ok] at h
    obtain ⟨ts, hts, -⟩ := h
    exact ofValues_atoms off xs ts hts
  | .map _ kvs, t, h => by
    simp only [fromValue, except_bind_ok] at h
    obtain ⟨ks, hks, vs, hvs, -⟩ := h
    exact ofPairs_atoms off kvs ks vs hks hvs
  | .none, _, _ | .bool _, _, _ | .int _, _, _ | .float _, _, _ | .dec _, _, _ | .str _, _, _ | .bytes _, _, _
  | .date _, _, _ | .datetime .., _, _ | .timedelta _, _, _ | .builtinFn _, _, _ | .userFn _, _, _
  | .method .., _, _ => by simp only [Expr.ofValue, Expr.AtomLits, coerce]; rfl
  | .obj _, t, h => by cases h
  | .undef, t, h => by cases h
theorem ofValues_atoms (off : TzDb) : ∀ (xs : List Value) (ts : List DataType), typesOf xs = .ok ts →
    Expr.AtomList (Expr.ofValues off xs)
  | [], _, _ => trivial
  | x :: xs, ts, h => by
    simp only [typesOf, except_bind_ok] at h
    obtain ⟨t, h1, ts', h2, -⟩ := h
    exact ⟨ofValue_atoms off x t h1, ofValues_atoms off xs ts' h2⟩
theorem ofPairs_atoms (off : TzDb) : ∀ (kvs : List (Value × Value)) (ks vs : List DataType), typesOfKeys kvs = .ok ks →
    typesOfVals kvs = .ok vs → Expr.AtomPairs (Expr.ofPairs off kvs)
  | [], _, _, _, _ => trivial
  | (k, v) :: rest, ks, vs, h, h' => by
    simp only [typesOfKeys, typesOfVals, except_bind_ok] at h h'
    obtain ⟨t, h1, ts', h2, -⟩ := h
    obtain ⟨t', h1', ts'', h2', -⟩ := h'
    exact ⟨ofValue_atoms off k t h1, ofValue_atoms off v t' h1', ofPairs_atoms off rest _ _ h2 h2'⟩
end

theorem litOf_atoms {off : TzDb} {v : Value} {e : Expr} (h : litOf off v = .ok e) : e.AtomLits := by
  simp only [litOf, except_bind_ok, Except.ok.injEq] at h
  obtain ⟨t, ht, rfl⟩ := h
  exact ofValue_atoms off v t ht

theorem opNeg_atom {dc : DecCtx} {a v : Value} (ha : a.isAtom = true) (h : opNeg dc a = .ok v) : v.isAtom = true := by
  cases a <;> simp [Value.isAtom] at ha <;> simp [opNeg, isNumeric] at h
  all_goals simp only [pyNeg, mkTimedelta] at h
  · rcases hd : decNeg dc _ with err | d
    · rw [hd] at h; cases h
    · rw [hd] at h; cases h; rfl
  · split at h
    · cases h; rfl
    · cases h

mutual
theorem built_atoms {env : Env} {dct : DecCtx} : ∀ (raw : Raw) {Γ : List Assignment} {e : Expr}, raw.Plain →
    Built env dct Γ raw e → e.AtomLits
  | .lit v, Γ, e, hp, hb => by
    simp only [Built] at hb
    obtain ⟨t, -, rfl⟩ := hb
    simp only [Raw.Plain] at hp
    cases v <;> simp [Value.isToken] at hp <;> rfl
  | .floatLit x, Γ, e, hp, hb => by simp only [Built] at hb; obtain ⟨d, -, rfl⟩ := hb; rfl
  | .datetimeLit x, Γ, e, hp, hb => by
    simp only [Built] at hb
    obtain ⟨d, hd, rfl⟩ := hb
    unfold parseDatetime at hd
    split at hd <;> cases hd <;> rfl
  | .timedeltaLit x, Γ, e, hp, hb => by simp only [Built] at hb; obtain ⟨d, -, rfl⟩ := hb; rfl
  | .array xs, Γ, e, hp, hb => by simp only [Built] at hb; obtain ⟨es, hes, rfl⟩ := hb; exact builts_atoms xs hp hes
  | .set xs, Γ, e, hp, hb => by simp only [Built] at hb; obtain ⟨es, hes, rfl⟩ := hb; exact builts_atoms xs hp hes
  | .mapping kvs, Γ, e, hp, hb => by
    simp only [Built] at hb; obtain ⟨es, hes, -, rfl⟩ := hb; exact builtp_atoms kvs hp hes
  | .bin op l r, Γ, e, hp, hb => by
    simp only [Built] at hb
    obtain ⟨l', r', hl, hr, -, he⟩ := hb
    split at he
    · obtain ⟨v, -, hl⟩ := he; exact litOf_atoms hl
    · rw [he]; trivial
  | .comp r var it c, Γ, e, hp, hb => by
    simp only [Built] at hb
    obtain ⟨it', t, c', r', hit, -, hc, hr, rfl⟩ := hb
    trivial
  | .contains c m, Γ, e, hp, hb => by
    simp only [Built] at hb
    obtain ⟨c', m', hc, hm, -, he⟩ := hb
    split at he
    · obtain ⟨v, ⟨s, s', -, hv⟩, rfl⟩ := he
      simp only [eval, M.bind_eq_ok, M.pure_eq_ok] at hv
      obtain ⟨_, _, _, _, _, _, _, _, _, _, _, _, rfl, -⟩ := hv
      rfl
    · rw [he]; trivial
  | .getAttr o name safe, Γ, e, hp, hb => by
    simp only [Built] at hb
    obtain ⟨o', ho, -, he⟩ := hb
    split at he
    · obtain ⟨e', ⟨v, -, hl⟩, rfl⟩ := he
      have := litOf_atoms hl
      unfold attrLit
      split
      · split <;> exact this
      · exact this
    · rw [he]; trivial
  | .getItem c i safe, Γ, e, hp, hb => by
    simp only [Built] at hb
    obtain ⟨c', i', hc, hi, -, he⟩ := hb
    split at he
    · rw [he]; rfl
    split at he
    · obtain ⟨v, -, hl⟩ := he; exact litOf_atoms hl
    · rw [he]; trivial
  | .getSlice c a b safe, Γ, e, hp, hb => by
    simp only [Built] at hb
    obtain ⟨c', a', b', hc, ha, hb', -, he⟩ := hb
    split at he
    · obtain ⟨v, -, hl⟩ := he; exact litOf_atoms hl
    · rw [he]; trivial
  | .sym name b, Γ, e, hp, hb => by simp only [Built] at hb; obtain ⟨t, -, rfl⟩ := hb; trivial
  | .call f args, Γ, e, hp, hb => by
    simp only [Built] at hb
    obtain ⟨f', as, hf, has, -, he⟩ := hb
    split at he
    · obtain ⟨v, -, hl⟩ := he; exact litOf_atoms hl
    · rw [he]; trivial
  | .tern c t f, Γ, e, hp, hb => by
    simp only [Built] at hb
    obtain ⟨c', t', f', hc, ht, hf, rfl⟩ := hb
    have h2 := built_atoms t hp.2.1 ht
    have h3 := built_atoms f hp.2.2 hf
    unfold mkTern
    split
    · split <;> assumption
    · trivial
  | .not x, Γ, e, hp, hb => by
    simp only [Built] at hb
    obtain ⟨x', hx, he⟩ := hb
    split at he
    · obtain ⟨v, ⟨s, s', -, hv⟩, rfl⟩ := he
      simp only [eval, M.bind_eq_ok, M.pure_eq_ok] at hv
      obtain ⟨_, _, _, rfl, -⟩ := hv
      rfl
    · rw [he]; trivial
  | .neg x, Γ, e, hp, hb => by
    simp only [Built] at hb
    obtain ⟨x', hx, he⟩ := hb
    have h1 := built_atoms x hp hx
    split at he
    · obtain ⟨w, v, t, rfl, -, ⟨s, s', -, hv⟩, rfl⟩ := he
      simp only [eval, M.bind_eq_ok, M.lift_eq_ok] at hv
      obtain ⟨_, _, hw, hv, -⟩ := hv
      simp only [M.pure_eq_ok] at hw
      rw [← hw.1] at hv
      exact opNeg_atom h1 hv
    · rw [he]; trivial
theorem builts_atoms {env : Env} {dct : DecCtx} : ∀ (raws : List Raw) {Γ : List Assignment} {es : List Expr},
    Raw.PlainList raws → BuiltList env dct Γ raws es → Expr.AtomList es
  | [], Γ, es, hp, hb => by simp only [BuiltList] at hb; subst hb; trivial
  | x :: xs, Γ, es, hp, hb => by
    simp only [BuiltList] at hb
    obtain ⟨e, es', he, hes, rfl⟩ := hb
    exact ⟨built_atoms x hp.1 he, builts_atoms xs hp.2 hes⟩
theorem builtp_atoms {env : Env} {dct : DecCtx} : ∀ (raws : List (Raw × Raw)) {Γ : List Assignment}
    {es : List (Expr × Expr)}, Raw.PlainPairs raws → BuiltPairs env dct Γ raws es → Expr.AtomPairs es
  | [], Γ, es, hp, hb => by simp only [BuiltPairs] at hb; subst hb; trivial
  | (k, v) :: xs, Γ, es, hp, hb => by
    simp only [BuiltPairs] at hb
    obtain ⟨k', v', es', hk, hv, hes, rfl⟩ := hb
    exact ⟨built_atoms k hp.1 hk, built_atoms v hp.2.1 hv, builtp_atoms xs hp.2.2 hes⟩
end

mutual
theorem atoms_give {env : Env} {dc : DecCtx} {thing : Value} : ∀ e : Expr, e.AtomLits → e.reduced = true →
    Gives (Value.Literal env.utcoffset) (eval env dc thing e)
  | .lit v t, h, _ => by
    intro s w s' hw
    simp only [eval, M.pure_eq_ok] at hw
    rw [← hw.1]
    exact atom_literal h
  | .array xs, h, hr => by
    intro s w s' hw
    simp only [eval, M.bind_eq_ok, M.pure_eq_ok] at hw
    obtain ⟨vs, s1, h1, rfl, -⟩ := hw
    show Value.AllLiteral _ _
    exact allLiteral_iff.2 (seqM_gives (atoms_gives xs h (by simpa only [Expr.reduced] using hr)) h1)
  | .set xs, h, hr => by
    intro s w s' hw
    simp only [eval, M.bind_eq_ok, M.pure_eq_ok] at hw
    obtain ⟨vs, s1, h1, rfl, -⟩ := hw
    exact setM_gives_literal (atoms_gives xs h (by simpa only [Expr.reduced] using hr)) (by simp [Value.Literal, Value.AllLiteral]) h1
  | .mapping kvs, h, hr => by
    intro s w s' hw
    simp only [eval] at hw
    exact mapping_gives_literal (atomp_gives kvs h (by simpa only [Expr.reduced] using hr)) _ _ _ hw
  | .bin .., _, h | .comp .., _, h | .contains .., _, h | .getAttr .., _, h | .getItem .., _, h | .getSlice .., _, h
  | .sym .., _, h | .call .., _, h | .tern .., _, h | .not _, _, h | .neg _, _, h => by simp [Expr.reduced] at h
theorem atoms_gives {env : Env} {dc : DecCtx} {thing : Value} : ∀ es : List Expr, Expr.AtomList es →
    Expr.reducedList es = true → ∀ m ∈ evals env dc thing es, Gives (Value.Literal env.utcoffset) m
  | [], _, _ => by simp [evals]
  | e :: es, h, hr => by
    simp only [Expr.reducedList, Bool.and_eq_true] at hr
    intro m hm
    simp only [evals, List.mem_cons] at hm
    rcases hm with rfl | hm
    · exact atoms_give e h.1 hr.1
    · exact atoms_gives es h.2 hr.2 m hm
theorem atomp_gives {env : Env} {dc : DecCtx} {thing : Value} : ∀ es : List (Expr × Expr), Expr.AtomPairs es →
    Expr.reducedPairs es = true → ∀ p ∈ evalPairs env dc thing es,
      Gives (Value.Literal env.utcoffset) p.1 ∧ Gives (Value.Literal env.utcoffset) p.2
  | [], _, _ => by simp [evalPairs]
  | (k, v) :: es, h, hr => by
    simp only [Expr.reducedPairs, Bool.and_eq_true] at hr
    intro m hm
    simp only [evalPairs, List.mem_cons] at hm
    rcases hm with rfl | hm
    · exact ⟨atoms_give k h.1 hr.1.1, atoms_give v h.2.1 hr.1.2⟩
    · exact atomp_gives es h.2.2 hr.2 m hm
end

theorem setOfList_literal {off : TzDb} {xs ys : List Value} (hx : ∀ x ∈ xs, x.Literal off)
    (h : setOfList off xs = .ok ys) : (Value.set ys).Literal off := by
  have hm := setOfList_mem h
  unfold setOfList at h
  split at h
  · rename_i hh
    cases h
    simp only [Value.Literal]
    refine ⟨allLiteral_iff.2 fun y hy => hx y (hm y hy), fun y hy => allHashable_mem hh y (hm y hy), ?_⟩
    exact setFold_pairwise List.Pairwise.nil
  · cases h

theorem members_literal {off : TzDb} {v : Value} {xs : List Value} (hv : v.Literal off)
    (hb : v.isBytes = false) (h : v.members = .ok xs) : ∀ x ∈ xs, x.Literal off := by
  cases v <;> simp only [Value.members, Except.ok.injEq, reduceCtorEq] at h
  case str s =>
    subst h
    intro x hx
    obtain ⟨c, -, rfl⟩ := List.mem_map.1 hx
    trivial
  case bytes => simp [Value.isBytes] at hb
  case seq k ys =>
    subst h
    cases k <;> simp only [Value.Literal] at hv
    exact allLiteral_iff.1 hv
  case set ys =>
    subst h
    simp only [Value.Literal] at hv
    exact allLiteral_iff.1 hv.1
  case map k kvs =>
    subst h
    cases k <;> simp only [Value.Literal] at hv
    intro x hx
    obtain ⟨p, hp, rfl⟩ := List.mem_map.1 hx
    exact (pairsLiteral_iff.1 hv.1 p hp).1

theorem tuple_literal {off : TzDb} {xs : List Value} (h : ∀ x ∈ xs, x.Literal off) :
    (Value.tuple xs).Literal off := by
  show Value.AllLiteral off xs
  exact allLiteral_iff.2 h

/-- the attribute functions on literal values; only the members of a set made of bytes stay Python
ints -/
theorem attrValue_literal {env : Env} {k : AttrKind} {name : String}
    {f : DataType → DataType} {t : DataType} {o w : Value} (hk : attrKind t = some k)
    (ht : fromValue o = .ok t) (hf : attrTypeFn k name = some f) (ho : o.Literal env.utcoffset)
    (hb : name = "to_set" → o.isBytes = false)
    (h : attrValue env k name o = .ok w) : (coerce env.utcoffset w).Literal env.utcoffset := by
  have hcan : ∀ {w : Value}, w.Literal env.utcoffset → (coerce env.utcoffset w).Literal env.utcoffset := fun hw => by
    rw [coerce_literal _ hw]; exact hw
  have hnum : ∀ {w : Value}, w.IsNum → (coerce env.utcoffset w).Literal env.utcoffset := by
    rintro w (⟨d, rfl⟩ | ⟨d, rfl⟩ | ⟨d, rfl⟩) <;> simp only [coerce] <;> trivial
  have hnot : ∀ {P : Prop}, ¬ o.Literal env.utcoffset → P := fun h => absurd ho h
  cases o <;> simp only [fromValue, except_bind_ok] at ht
  case int | float | date | obj | undef => exact hnot (by simp [Value.Literal])
  case builtinFn => cases ht; simp [attrKind] at hk
  case userFn => cases ht; simp [attrKind] at hk
  case none => cases ht; simp [attrKind] at hk
  case bool => cases ht; simp [attrKind] at hk
  case method => cases ht; simp [attrKind] at hk
  case dec d =>
    cases ht
    simp only [attrKind, Option.some.injEq] at hk
    subst hk
    simp only [attrTypeFn] at hf
    split at hf <;> simp only [Option.some.injEq, reduceCtorEq] at hf <;> subst hf <;>
      simp only [attrValue] at h
    · split at h <;> first
        | (cases shortInt_ok h; exact hnum (.inr (.inl ⟨_, rfl⟩))) | (cases h; exact hnum (.inl ⟨_, rfl⟩)) | cases h
    · split at h <;> first
        | (cases shortInt_ok h; exact hnum (.inr (.inl ⟨_, rfl⟩))) | (cases h; exact hnum (.inl ⟨_, rfl⟩)) | cases h
    · cases h; exact hcan (by trivial)
    · cases h; exact hcan (by trivial)
    · simp only [except_bind_ok, Except.ok.injEq] at h
      obtain ⟨_, -, rfl⟩ := h
      exact hcan (by trivial)
    · split at h <;> cases h <;> exact hcan (by trivial)
  case str b =>
    cases ht
    simp only [attrKind, Option.some.injEq] at hk
    subst hk
    simp only [attrTypeFn] at hf
    split at hf <;> simp only [Option.some.injEq, reduceCtorEq] at hf <;> subst hf <;>
      simp only [attrValue, Except.ok.injEq, except_bind_ok] at h
    · subst h; exact hcan (by trivial)
    · subst h; exact hcan (by trivial)
    · subst h; exact hcan (by trivial)
    · obtain ⟨r, hr, h⟩ := h
      cases shortInt_ok h
      exact hnum (stringToFlt_num hr)
    · obtain ⟨r, hr, _, -, h⟩ := h
      cases shortInt_ok h
      exact hnum (stringToFlt_num hr)
    · subst h; exact hcan (by trivial)
    · subst h; exact hcan (by trivial)
    · subst h; exact hnum (.inr (.inl ⟨_, rfl⟩))
    · subst h; exact hcan (by trivial)
    · obtain ⟨xs, hx, rfl⟩ := h
      exact hcan (tuple_literal (members_literal (v := .str b) trivial rfl hx))
    · subst h; exact hcan (by trivial)
    · obtain ⟨xs, hx, ys, hy, rfl⟩ := h
      exact hcan (setOfList_literal (members_literal (v := .str b) trivial rfl hx) hy)
  case bytes b =>
    cases ht
    simp only [attrKind, Option.some.injEq] at hk
    subst hk
    simp only [attrTypeFn] at hf
    split at hf <;> simp only [Option.some.injEq, reduceCtorEq] at hf <;> subst hf <;>
      simp only [attrValue, Except.ok.injEq, except_bind_ok] at h
    · subst h; exact hcan (by trivial)
    · subst h; exact hcan (by trivial)
    · subst h; exact hcan (by trivial)
    · subst h; exact hnum (.inr (.inl ⟨_, rfl⟩))
    · subst h; exact hcan (by trivial)
    · obtain ⟨xs, hx, rfl⟩ := h
      simp only [Value.members, Except.ok.injEq] at hx
      subst hx
      simp only [coerce]
      show Value.AllLiteral _ _
      rw [allLiteral_iff, coerceList_map]
      intro x hx
      simp only [List.map_map, List.mem_map, Function.comp] at hx
      obtain ⟨y, -, rfl⟩ := hx
      simp only [coerce]; trivial
    · exact absurd (hb rfl) (by simp [Value.isBytes])
  case seq kd zs =>
    have hmem : ∀ {xs : List Value}, (Value.seq kd zs).members = .ok xs →
        ∀ x ∈ xs, x.Literal env.utcoffset := fun h => members_literal ho rfl h
    obtain ⟨ts, -, ht⟩ := ht
    cases ht
    simp only [attrKind, Option.some.injEq] at hk
    subst hk
    simp only [attrTypeFn] at hf
    split at hf <;> simp only [Option.some.injEq, reduceCtorEq] at hf <;> subst hf <;>
      simp only [attrValue, Except.ok.injEq, except_bind_ok] at h
    · subst h; exact hcan (by trivial)
    · subst h; exact hcan (by trivial)
    · subst h; exact hnum (.inr (.inl ⟨_, rfl⟩))
    · subst h; exact hcan (by trivial)
    · obtain ⟨xs, hx, rfl⟩ := h
      exact hcan (tuple_literal (hmem hx))
    · obtain ⟨xs, hx, ys, hy, rfl⟩ := h
      exact hcan (setOfList_literal (hmem hx) hy)
  case set zs =>
    have hmem : ∀ {xs : List Value}, (Value.set zs).members = .ok xs →
        ∀ x ∈ xs, x.Literal env.utcoffset := fun h => members_literal ho rfl h
    obtain ⟨ts, -, ht⟩ := ht
    cases ht
    simp only [attrKind, Option.some.injEq] at hk
    subst hk
    simp only [attrTypeFn] at hf
    split at hf <;> simp only [Option.some.injEq, reduceCtorEq] at hf <;> subst hf <;>
      simp only [attrValue, Except.ok.injEq, except_bind_ok] at h
    · subst h; exact hcan (by trivial)
    · subst h; exact hnum (.inr (.inl ⟨_, rfl⟩))
    · obtain ⟨xs, hx, rfl⟩ := h
      exact hcan (tuple_literal (hmem hx))
    · obtain ⟨xs, hx, ys, hy, rfl⟩ := h
      exact hcan (setOfList_literal (hmem hx) hy)
  case map kd kvs =>
    have ho : Value.PairsLiteral env.utcoffset kvs := by
      cases kd with
      | ordered => simp only [Value.Literal] at ho; exact ho.1
      | dict => exact hnot (by simp [Value.Literal])
    obtain ⟨ks, -, vs, -, ht⟩ := ht
    unfold mkMappingType at ht
    split at ht <;> cases ht
    simp only [attrKind, Option.some.injEq] at hk
    subst hk
    simp only [attrTypeFn] at hf
    split at hf <;> simp only [Option.some.injEq, reduceCtorEq] at hf <;> subst hf <;>
      simp only [attrValue, Except.ok.injEq] at h
    · subst h
      refine hcan (tuple_literal fun x hx => ?_)
      obtain ⟨p, hp, rfl⟩ := List.mem_map.1 hx
      exact (pairsLiteral_iff.1 ho p hp).1
    · subst h
      refine hcan (tuple_literal fun x hx => ?_)
      obtain ⟨p, hp, rfl⟩ := List.mem_map.1 hx
      exact (pairsLiteral_iff.1 ho p hp).2
    · subst h; exact hcan (by trivial)
    · subst h; exact hnum (.inr (.inl ⟨_, rfl⟩))
  case timedelta us =>
    cases ht
    simp only [attrKind, Option.some.injEq] at hk
    subst hk
    simp only [attrTypeFn] at hf
    split at hf <;> simp only [Option.some.injEq, reduceCtorEq] at hf <;> subst hf <;>
      simp only [attrValue, Except.ok.injEq] at h <;> subst h <;>
      first | exact hnum (.inr (.inl ⟨_, rfl⟩)) | exact hnum (.inr (.inr ⟨_, rfl⟩))
  case datetime us tz =>
    cases ht
    simp only [attrKind, Option.some.injEq] at hk
    subst hk
    simp only [attrTypeFn] at hf
    cases tz <;> split at hf <;> simp only [Option.some.injEq, reduceCtorEq] at hf <;> subst hf <;>
      simp only [attrValue, Except.ok.injEq] at h <;> first
        | (subst h; exact hnum (.inr (.inl ⟨_, rfl⟩)))
        | (subst h; exact hnum (.inr (.inr ⟨_, rfl⟩)))
        | (subst h; exact hcan (by trivial))
        | (split at h <;> cases h <;> exact hcan (by trivial))

theorem resolveAttr_literal {env : Env} {name : String} {o v : Value}
    (ho : o.Literal env.utcoffset) (hb : name = "to_set" → o.isBytes = false)
    (h : resolveAttr env o name = .ok v) : v.Literal env.utcoffset := by
  unfold resolveAttr at h
  split at h
  · cases h
  · cases h
  · split at h
    · cases h
    · split at h
      · cases h
      · simp only [except_bind_ok, coerceVerify, Except.ok.injEq] at h
        obtain ⟨w, hw, _, ⟨_, -, rfl⟩, _, -, h⟩ := h
        split at h <;> cases h
        exact attrValue_literal ‹_› ‹_› ‹_› ho hb hw

theorem localise_literal {env : Env} {v : Value} {off : TzDb} (h : v.Literal off) : (localise env v).Literal off := by
  unfold localise
  split
  · trivial
  · exact h

theorem newValue_literal {env : Env} {v : Value} (h : v.Literal env.utcoffset) : (newValue env v).Literal env.utcoffset := by
  unfold newValue
  rw [coerce_literal v h]
  exact localise_literal h

/-- A constant of a rule made from a text evaluates to a value that can be written as a literal. -/
theorem part_literal {codec : LitCodec} {env : Env} {dct : DecCtx} {t : List Char} {l : Expr}
    (ha : Part codec env dct t l) (hr : l.reduced = true) {dc : DecCtx} {thing v : Value} {s s' : St}
    (h : eval env dc thing l s = (.ok v, s')) : v.Literal env.utcoffset := by
  obtain ⟨-, acts, hacts⟩ := ha
  rcases hp : (runTexts codec env acts Proc.new).rule codec env dct (String.ofList t) with ⟨x, p⟩
  rw [hp] at hacts
  simp only at hacts
  subst hacts
  obtain ⟨raw, s1, s2, hpl, hb⟩ : ∃ raw s1 s2, raw.Plain ∧ build env dct raw s1 = (.ok l, s2) := by
    unfold Proc.rule at hp
    rcases hq : parseRule codec env dct (runTexts codec env acts Proc.new).line (String.ofList t)
      (runTexts codec env acts Proc.new).st with ⟨y, s3⟩
    simp only [hq, Prod.mk.injEq] at hp
    rw [hp.1] at hq
    obtain ⟨raw, -, -, hpl, hc⟩ := parseRule_ok hq
    exact ⟨raw, _, _, hpl, hc⟩
  exact atoms_give l (built_atoms raw hpl (build_built raw hb)) hr _ _ _ h

end RE
