import Verif.Props.Order

/-!
# C22, C32: membership and mapping literals
-/

namespace RE

set_option linter.unusedSimpArgs false

/-! ## C22 -/

/-- Specification: what `m in c` evaluates to (or raises), for operands that are already values. -/
def inResult (env : Env) (dc : DecCtx) (m c : Value) : Except Err Value :=
  (eval env dc .none (.contains (.lit c .undefined) (.lit m .undefined)) St.init).1

/-- The result of `in` depends on the operand expressions only through their values. -/
theorem eval_contains_values (env : Env) (dc : DecCtx) (thing : Value) (ce me : Expr) (s s1 s2 : St)
    (c m : Value) (hc : eval env dc thing ce s = (.ok c, s1)) (hm : eval env dc thing me s1 = (.ok m, s2)) :
    (eval env dc thing (.contains ce me) s).1 = inResult env dc m c := by
  unfold inResult
  simp only [eval, M.bind_apply, hc, M.pure_apply, M.lift_apply]
  rcases fromValue c with e | t
  · rfl
  · simp only [hm]
    rcases opContains env.utcoffset t c m with e | x <;> rfl

/-- **C22.** `not in` is parsed as the negation of `in`. -/
theorem not_in_negates (env : Env) (dc : DecCtx) (thing : Value) (ce me : Expr) (s s1 : St) (b : Bool) :
    eval env dc thing (.contains ce me) s = (.ok (.bool b), s1) →
      eval env dc thing (.not (.contains ce me)) s = (.ok (.bool (!b)), s1) := by
  intro h
  rw [not_boolean]
  exact ⟨_, h, by simp [Value.truthy]⟩

theorem inResult_of (env : Env) (dc : DecCtx) (m c : Value) (t : DataType) (h : fromValue c = .ok t) :
    inResult env dc m c = (opContains env.utcoffset t c m).map Value.bool := by
  unfold inResult
  simp only [eval, M.bind_apply, M.pure_apply, M.lift_apply, h]
  rcases opContains env.utcoffset t c m with e | x <;> rfl

theorem isPart_iff {α : Type} [BEq α] [LawfulBEq α] (p : List α) : ∀ s : List α,
    isPart p s = true ↔ p <:+: s
  | [] => by cases p <;> simp [isPart]
  | x :: s => by
    simp only [isPart, Bool.or_eq_true, isPart_iff p s, List.isPrefixOf_iff_prefix]
    rw [List.infix_cons_iff]

/-- **C22.** For a string `c`, `m in c` is true iff `m` is a contiguous part of `c`. -/
theorem in_string (env : Env) (dc : DecCtx) (m c : String) :
    ∃ b : Bool, inResult env dc (.str m) (.str c) = .ok (.bool b) ∧
      (b = true ↔ ∃ p q : String, c = p ++ m ++ q) := by
  refine ⟨isPart m.toList c.toList, ?_, ?_⟩
  · rw [inResult_of env dc _ _ .string rfl]; rfl
  · rw [isPart_iff]
    constructor
    · rintro ⟨p, q, h⟩
      refine ⟨String.ofList p, String.ofList q, ?_⟩
      apply String.toList_inj.mp
      simp [← h]
    · rintro ⟨p, q, rfl⟩
      exact ⟨p.toList, q.toList, by simp⟩

/-- **C22.** The same for bytes. -/
theorem in_bytes (env : Env) (dc : DecCtx) (m c : List UInt8) :
    ∃ b : Bool, inResult env dc (.bytes m) (.bytes c) = .ok (.bool b) ∧
      (b = true ↔ ∃ p q : List UInt8, c = p ++ m ++ q) := by
  refine ⟨isPart m c, ?_, ?_⟩
  · rw [inResult_of env dc _ _ .bytes rfl]; rfl
  · rw [isPart_iff]
    constructor
    · rintro ⟨p, q, h⟩
      exact ⟨p, q, h.symm⟩
    · rintro ⟨p, q, rfl⟩
      exact ⟨p, q, rfl⟩

/-- **C22.** Only a string can be in a string (EvaluationError), and only bytes in bytes. -/
theorem in_text_mismatch (env : Env) (dc : DecCtx) (m c : Value) (t u : DataType)
    (hc : fromValue c = .ok t) (ht : t = .string ∨ t = .bytes) (hm : fromValue m = .ok u)
    (hk : u.kind ≠ t.kind) : inResult env dc m c = .error (.eng .evaluation) := by
  rw [inResult_of env dc _ _ t hc]
  have : (DataType.eq t .bytes || DataType.eq t .string) = true := by
    rcases ht with rfl | rfl <;> rfl
  have hu : DataType.eq u t = false := by
    rw [Bool.eq_false_iff]
    intro h
    apply hk
    rcases ht with rfl | rfl <;> cases u <;> simp_all [DataType.eq]
  simp [opContains, this, hm, hu, Except.map, Except.bind, bind]

/-- what `in` tests for containers -/
def Value.elements : Value → Option (List Value)
  | .seq _ xs => some xs
  | .set xs => some xs
  | .map _ kvs => some (kvs.map (·.1))
  | _ => .none

/-- **C22.** For an array, set or mapping `c`, `m in c` is true iff an element (for mappings: a key) of
`c` is equal to `m` in the sense of Python.  For sets and mappings `m` must be hashable. -/
theorem in_collection (env : Env) (dc : DecCtx) (m c : Value) (t : DataType) (xs : List Value)
    (hc : fromValue c = .ok t) (hx : c.elements = some xs)
    (hm : m.hashable = true ∨ ∃ k ys, c = .seq k ys) :
    ∃ b : Bool, inResult env dc m c = .ok (.bool b) ∧
      (b = true ↔ ∃ x ∈ xs, pyEq env.utcoffset x m = true) := by
  refine ⟨xs.any (fun x => pyEq env.utcoffset x m), ?_, by simp [List.any_eq_true]⟩
  rw [inResult_of env dc _ _ t hc]
  have hk := fromValue_kind c t hc
  have ht : (DataType.eq t .bytes || DataType.eq t .string) = false := by
    cases c <;> simp [Value.elements] at hx <;> (try (rename_i k _; cases k)) <;>
      cases t <;> simp_all [DataType.eq, DataType.kind, pyTypeKind, Value.pyType]
  simp only [opContains, ht, Bool.false_eq_true, if_false]
  cases c <;> simp [Value.elements] at hx <;> subst hx
  · rfl
  · have hm : m.hashable = true := by simpa using hm
    cases m <;> first | (simp [Value.hashable] at hm; done) | simp [pyIn, hm, Except.map]
  · have hm : m.hashable = true := by simpa using hm
    simp [pyIn, hm, Except.map, List.any_map, Function.comp_def]

/-- Python equality of values in normal form is equality in the sense of the engine's `==`, except
between booleans and numbers. -/
theorem pyEq_iff_engine (env : Env) (dc : DecCtx) (x m : Value) (hx : x.Normal) (hm : m.Normal)
    (hmix : ¬ (x.pyType = .bool ∧ m.pyType = .dec) ∧ ¬ (x.pyType = .dec ∧ m.pyType = .bool)) :
    pyEq env.utcoffset x m = true ↔ binResult env dc .eq x m = .ok (.bool true) := by
  rw [binResult_eq]
  simp only [opEq, Except.ok.injEq, Value.bool.injEq]
  by_cases h : x.pyType = m.pyType
  · simp [h]
  · simp only [h, if_false, Bool.false_eq_true, iff_false, Bool.not_eq_true]
    cases x <;> simp only [Value.Normal] at hx <;> cases m <;> simp only [Value.Normal] at hm <;>
      first
        | (simp [pyEq, Value.asNumber]; done)
        | (exact absurd rfl h)
        | (simp [Value.pyType] at hmix; done)
        | skip
    · obtain ⟨rfl, -⟩ := hx
      obtain ⟨rfl, -⟩ := hm
      exact absurd rfl h
    · obtain ⟨rfl, -⟩ := hx
      obtain ⟨rfl, -⟩ := hm
      exact absurd rfl h
    all_goals
      · rw [Bool.eq_false_iff]
        intro he
        rw [pyEq_atom_left trivial] at he
        cases he
        exact h rfl

/-- **C22**, the part that holds: `m in c` iff `c` holds an element that is equal to `m` in the sense
of the `==` operator, provided a boolean is not looked up among numbers or vice versa.  Missing: that
case, where Python takes `true` for 1, see `true_in_numbers`. -/
theorem in_iff_engine_eq_partial (env : Env) (dc : DecCtx) (m c : Value) (t : DataType) (xs : List Value)
    (hc : fromValue c = .ok t) (hx : c.elements = some xs)
    (hm : m.hashable = true ∨ ∃ k ys, c = .seq k ys) (hmn : m.Normal) (hxn : ∀ x ∈ xs, x.Normal)
    (hmix : ∀ x ∈ xs, ¬ (x.pyType = .bool ∧ m.pyType = .dec) ∧ ¬ (x.pyType = .dec ∧ m.pyType = .bool)) :
    ∃ b : Bool, inResult env dc m c = .ok (.bool b) ∧
      (b = true ↔ ∃ x ∈ xs, binResult env dc .eq x m = .ok (.bool true)) := by
  obtain ⟨b, h1, h2⟩ := in_collection env dc m c t xs hc hx hm
  refine ⟨b, h1, h2.trans ?_⟩
  constructor
  · rintro ⟨x, hx, h⟩; exact ⟨x, hx, (pyEq_iff_engine env dc x m (hxn x hx) hmn (hmix x hx)).mp h⟩
  · rintro ⟨x, hx, h⟩; exact ⟨x, hx, (pyEq_iff_engine env dc x m (hxn x hx) hmn (hmix x hx)).mpr h⟩

/-- **C22 fails** for booleans: `true in [1]` is true although `true == 1` is false. -/
theorem true_in_numbers (env : Env) (dc : DecCtx) :
    inResult env dc (.bool true) (.tuple [.dec (.ofInt 1)]) = .ok (.bool true) ∧
    binResult env dc .eq (.bool true) (.dec (.ofInt 1)) = .ok (.bool false) := by
  constructor
  · rw [inResult_of env dc _ _ (.array .float true) (by decide +kernel)]
    have : decEq (.ofInt 1) (.ofInt 1) = true := by decide
    simp [opContains, DataType.eq, pyIn, pyEq, Value.asNumber, Except.map, this]
  · rw [binResult_eq]; simp [opEq, Value.pyType]

/-- the hypotheses are met -/
example : inResult sampleEnv .default (.str "b") (.map .ordered [(.str "a", .none), (.str "b", .none)]) =
    .ok (.bool true) := by decide +kernel

/-! ## C32 -/

/-- Specification: the keys without an equal key before them. -/
def firstKeys (off : TzDb) (seen : List Value) : List Value → List Value
  | [] => []
  | k :: ks =>
    if seen.any (fun k' => pyEq off k' k) then firstKeys off (seen ++ [k]) ks
    else k :: firstKeys off (seen ++ [k]) ks

/-- Specification: what the last entry with a key equal to `k` maps to. -/
def lastFor {α : Type} (off : TzDb) (entries : List (Value × α)) (k : Value) : Option α :=
  (entries.reverse.find? (fun p => pyEq off k p.1)).map (·.2)

/-- what is known of the keys of a mapping literal -/
structure GoodKey (off : TzDb) (k : Value) : Prop where
  wf : k.WF off
  hashable : k.hashable = true
  noNaN : k.NoNaN

theorem goodKey_trans {off : TzDb} (htz : TzOk off) {a b c : Value} (ha : GoodKey off a)
    (h1 : pyEq off a b = true) (h2 : pyEq off b c = true) : pyEq off a c = true :=
  pyEq_trans htz a b c (noDict_of_hashable a b ha.wf ha.hashable h1) h1 h2

theorem goodKey_symm {off : TzDb} (htz : TzOk off) {a b : Value} (ha : GoodKey off a)
    (h1 : pyEq off a b = true) : pyEq off b a = true := pyEq_symm htz a b ha.wf h1

theorem firstKeys_snoc (off : TzDb) (k : Value) : ∀ (seen ks : List Value),
    firstKeys off seen (ks ++ [k]) = firstKeys off seen ks ++
      (if (seen ++ ks).any (fun k' => pyEq off k' k) then [] else [k])
  | seen, [] => by simp [firstKeys]
  | seen, k0 :: ks => by
    simp only [List.cons_append, firstKeys]
    split
    · rw [firstKeys_snoc off k (seen ++ [k0]) ks]; simp
    · rw [firstKeys_snoc off k (seen ++ [k0]) ks]; simp

theorem firstKeys_any {off : TzDb} (htz : TzOk off) (ks : List Value) (hk : ∀ k ∈ ks, GoodKey off k) :
    ∀ k, (firstKeys off [] ks).any (fun k' => pyEq off k' k) = ks.any (fun k' => pyEq off k' k) := by
  induction ks using List.reverseRecOn with
  | nil => intro k; rfl
  | append_singleton ks k0 ih =>
    intro k
    have ih := ih (fun k hk' => hk k (by simp [hk']))
    rw [firstKeys_snoc]
    by_cases h : ([] ++ ks).any (fun k' => pyEq off k' k0) = true
    · rw [if_pos h, List.append_nil, ih, List.any_append]
      simp only [List.any_cons, List.any_nil, Bool.or_false]
      rw [Bool.eq_iff_iff, Bool.or_eq_true]
      constructor
      · exact .inl
      · rintro (h' | h')
        · exact h'
        · simp only [List.nil_append, List.any_eq_true] at h ⊢
          obtain ⟨k1, h1, h2⟩ := h
          exact ⟨k1, h1, goodKey_trans htz (hk k1 (by simp [h1])) h2 h'⟩
    · rw [if_neg h, List.any_append, List.any_append, ih]

theorem mapOfList_snoc {α : Type} (off : TzDb) (es : List (Value × α)) (k : Value) (v : α) :
    mapOfList off (es ++ [(k, v)]) = mapInsert off (mapOfList off es) k v := by
  simp [mapOfList]

theorem mapInsert_mem_iff {α : Type} {off : TzDb} (htz : TzOk off) (acc : List (Value × α)) (k : Value)
    (v : α) (hk : GoodKey off k) (hacc : ∀ p ∈ acc, GoodKey off p.1) (hd : DistinctKeys off acc)
    (q : Value × α) (hq : q ∈ mapInsert off acc k v) :
    (pyEq off q.1 k = true ∧ q.2 = v) ∨ (pyEq off q.1 k = false ∧ q ∈ acc) := by
  induction acc with
  | nil =>
    simp only [mapInsert, List.mem_singleton] at hq
    subst hq
    exact .inl ⟨pyEq_refl k hk.noNaN, rfl⟩
  | cons p acc ih =>
    obtain ⟨k', v'⟩ := p
    simp only [mapInsert] at hq
    by_cases h : pyEq off k' k = true
    · simp only [h, if_true, List.mem_cons] at hq
      rcases hq with rfl | hq
      · exact .inl ⟨h, rfl⟩
      · right
        refine ⟨?_, List.mem_cons_of_mem _ hq⟩
        rw [Bool.eq_false_iff]
        intro hqk
        have h0 := (List.pairwise_cons.mp hd).1 q hq
        have hg := hacc q (List.mem_cons_of_mem _ hq)
        have := goodKey_trans htz (hacc (k', v') List.mem_cons_self) h (goodKey_symm htz hg hqk)
        simp [this] at h0
    · simp only [h, if_false, Bool.false_eq_true, List.mem_cons] at hq
      rcases hq with rfl | hq
      · exact .inr ⟨by simpa using h, List.mem_cons_self⟩
      · rcases ih (fun p hp => hacc p (List.mem_cons_of_mem _ hp)) (List.pairwise_cons.mp hd).2 hq with g | ⟨g, g'⟩
        · exact .inl g
        · exact .inr ⟨g, List.mem_cons_of_mem _ g'⟩

/-- the entries that survive: first occurrence of each key with the last value for it -/
theorem mapOfList_spec {α : Type} {off : TzDb} (htz : TzOk off) (es : List (Value × α))
    (hk : ∀ p ∈ es, GoodKey off p.1) :
    (mapOfList off es).map (·.1) = firstKeys off [] (es.map (·.1)) ∧
    ∀ p ∈ mapOfList off es, lastFor off es p.1 = some p.2 := by
  induction es using List.reverseRecOn with
  | nil => simp [mapOfList, firstKeys]
  | append_singleton es e ih =>
    obtain ⟨k, v⟩ := e
    have hk' : ∀ p ∈ es, GoodKey off p.1 := fun p hp => hk p (by simp [hp])
    have hkk : GoodKey off k := hk (k, v) (by simp)
    obtain ⟨ih1, ih2⟩ := ih hk'
    have hsub : ∀ p ∈ mapOfList off es, GoodKey off p.1 := by
      intro p hp
      have : p.1 ∈ firstKeys off [] (es.map (·.1)) := by
        rw [← ih1]; exact List.mem_map_of_mem hp
      have hmem : ∀ (seen ks : List Value) (x : Value), x ∈ firstKeys off seen ks → x ∈ ks := by
        intro seen ks
        induction ks generalizing seen with
        | nil => simp [firstKeys]
        | cons a t ih =>
          intro x hx
          simp only [firstKeys] at hx
          split at hx
          · exact List.mem_cons_of_mem _ (ih _ _ hx)
          · rcases List.mem_cons.mp hx with rfl | hx
            · exact List.mem_cons_self
            · exact List.mem_cons_of_mem _ (ih _ _ hx)
      obtain ⟨q, hq, he⟩ := List.mem_map.mp (hmem _ _ _ this)
      rw [← he]
      exact hk' q hq
    constructor
    · rw [mapOfList_snoc, mapInsert_keys, ih1, List.map_append, List.map_cons, List.map_nil,
        firstKeys_snoc]
      have : (mapOfList off es).any (fun p => pyEq off p.1 k) =
          (List.map (fun x => x.1) es).any (fun k' => pyEq off k' k) := by
        rw [← firstKeys_any htz (es.map (·.1)) (by simpa using fun a b h => hk' (a, b) h) k, ← ih1, List.any_map]
        rfl
      rw [this, List.nil_append]
      split <;> simp
    · intro p hp
      rw [mapOfList_snoc] at hp
      simp only [lastFor, List.reverse_append, List.reverse_cons, List.reverse_nil, List.nil_append,
        List.cons_append, List.find?_cons]
      rcases mapInsert_mem_iff htz _ k v hkk hsub (mapOfList_distinctKeys off es) p hp with ⟨h, h'⟩ | ⟨h, h'⟩
      · simp [h, h']
      · simp only [h]
        exact ih2 p h'

/-- the key phase, when all keys evaluate to good keys of admissible type -/
theorem mapKeysM_ok {off : TzDb} : ∀ (es : List (M Value × M Value)) (ks : List Value)
    (acc : List (Value × M Value)) (s s1 : St),
    seqM (es.map (·.1)) s = (.ok ks, s1) →
    (∀ k ∈ ks, k.hashable = true ∧ ∃ t, fromValue k = .ok t ∧ t.kind ≠ .set ∧ t.kind ≠ .mapping) →
    mapKeysM off acc es s =
      (.ok ((ks.zip (es.map (·.2))).foldl (fun acc p => mapInsert off acc p.1 p.2) acc), s1)
  | [], ks, acc, s, s1, h, hk => by
    simp only [List.map_nil, seqM, M.pure_eq_ok] at h
    obtain ⟨rfl, rfl⟩ := h
    simp [mapKeysM]
  | (k, v) :: es, ks, acc, s, s1, h, hk => by
    simp only [List.map_cons, seqM, M.bind_eq_ok, M.pure_eq_ok] at h
    obtain ⟨key, s2, h1, ks', s3, h2, rfl, rfl⟩ := h
    obtain ⟨hh, t, ht, hs, hm⟩ := hk key List.mem_cons_self
    have hc : (t.isCompound && !t.isArray) = false := by
      cases t <;> simp_all [DataType.kind, DataType.isCompound, DataType.isScalar, DataType.isArray]
    simp only [mapKeysM]
    rw [M.bind_ok h1, M.bind_ok (a := t) (s' := s2) (by simp [ht])]
    simp only [hc, Bool.false_eq_true, if_false, hh, if_true]
    rw [mapKeysM_ok es ks' _ s2 s3 h2 (fun k hk' => hk k (List.mem_cons_of_mem _ hk'))]
    simp

theorem mapValsM_eq : ∀ (es : List (Value × M Value)) (s : St),
    mapValsM es s = match seqM (es.map (·.2)) s with
      | (.ok vs, s') => (.ok ((es.map (·.1)).zip vs), s')
      | (.error e, s') => (.error e, s')
  | [], s => by simp [mapValsM, seqM]
  | (k, m) :: es, s => by
    simp only [mapValsM, seqM, List.map_cons, M.bind_apply]
    rcases m s with ⟨_ | v, s1⟩
    · rfl
    · simp only [mapValsM_eq es s1]
      generalize seqM (List.map (fun x => x.2) es) s1 = r
      rcases r with ⟨_ | vs, s2⟩ <;> simp

theorem evals_eq_map (env : Env) (dc : DecCtx) (thing : Value) (es : List Expr) :
    evals env dc thing es = es.map (eval env dc thing) := by
  induction es with
  | nil => rfl
  | cons a t ih => simp [evals, ih]

theorem evalPairs_eq_map (env : Env) (dc : DecCtx) (thing : Value) (es : List (Expr × Expr)) :
    evalPairs env dc thing es = es.map (fun p => (eval env dc thing p.1, eval env dc thing p.2)) := by
  induction es with
  | nil => rfl
  | cons a t ih => obtain ⟨k, v⟩ := a; simp [evalPairs, ih]

theorem mapInsert_map {α β : Type} (off : TzDb) (f : α → β) (acc : List (Value × α)) (k : Value) (v : α) :
    mapInsert off (acc.map (fun p => (p.1, f p.2))) k (f v) =
      (mapInsert off acc k v).map (fun p => (p.1, f p.2)) := by
  induction acc with
  | nil => rfl
  | cons p acc ih =>
    obtain ⟨k', v'⟩ := p
    simp only [List.map_cons, mapInsert]
    split
    · simp
    · simp [ih]

theorem mapFold_map {α β : Type} (off : TzDb) (f : α → β) (es acc : List (Value × α)) :
    (es.map (fun p => (p.1, f p.2))).foldl (fun acc p => mapInsert off acc p.1 p.2)
        (acc.map (fun p => (p.1, f p.2))) =
      (es.foldl (fun acc p => mapInsert off acc p.1 p.2) acc).map (fun p => (p.1, f p.2)) := by
  induction es generalizing acc with
  | nil => rfl
  | cons p es ih => simp only [List.map_cons, List.foldl_cons]; rw [mapInsert_map, ih]

/-- **C32.** A mapping literal first evaluates all its key expressions, in order.  Then, with `ks` the
values of the keys, there is a selection of keys with value expressions such that: its keys are those
of `ks` without an equal one before them; the expression selected for a key is that of the last entry
with an equal key; and the result is the mapping of the selected keys to the values of the selected
expressions, which are evaluated in that order and are the only value expressions evaluated. -/
theorem mapping_literal (env : Env) (dc : DecCtx) (thing : Value) (htz : TzOk env.utcoffset)
    (kvs : List (Expr × Expr)) (ks : List Value) (s s1 : St)
    (hks : seqM (evals env dc thing (kvs.map (·.1))) s = (.ok ks, s1))
    (hk : ∀ k ∈ ks, GoodKey env.utcoffset k ∧
      ∃ t, fromValue k = .ok t ∧ t.kind ≠ .set ∧ t.kind ≠ .mapping) :
    ∃ sel : List (Value × Expr),
      sel.map (·.1) = firstKeys env.utcoffset [] ks ∧
      (∀ p ∈ sel, lastFor env.utcoffset (ks.zip (kvs.map (·.2))) p.1 = some p.2) ∧
      eval env dc thing (.mapping kvs) s =
        match seqM (evals env dc thing (sel.map (·.2))) s1 with
        | (.ok vs, s2) => (.ok (.map .ordered ((sel.map (·.1)).zip vs)), s2)
        | (.error e, s2) => (.error e, s2) := by
  have hlen : ks.length = kvs.length := by
    have : ∀ (ms : List (M Value)) (ks : List Value) (s s1 : St), seqM ms s = (.ok ks, s1) →
        ks.length = ms.length := by
      intro ms
      induction ms with
      | nil => intro ks s s1 h; simp only [seqM, M.pure_eq_ok] at h; rw [← h.1]; rfl
      | cons m ms ih =>
        intro ks s s1 h
        simp only [seqM, M.bind_eq_ok, M.pure_eq_ok] at h
        obtain ⟨v, s2, h1, vs, s3, h2, rfl, rfl⟩ := h
        simp [ih vs _ _ h2]
    have := this _ _ _ _ hks
    simpa [evals_eq_map] using this
  have hkeys : (ks.zip (kvs.map (·.2))).map (·.1) = ks := by
    apply List.map_fst_zip
    simp [hlen]
  have hspec := mapOfList_spec htz (ks.zip (kvs.map (·.2))) (by
    intro p hp
    exact (hk p.1 (List.of_mem_zip hp).1).1)
  rw [hkeys] at hspec
  refine ⟨mapOfList env.utcoffset (ks.zip (kvs.map (·.2))), hspec.1, hspec.2, ?_⟩
  simp only [eval, evalPairs_eq_map]
  have h1 := mapKeysM_ok (off := env.utcoffset)
    (kvs.map (fun p => (eval env dc thing p.1, eval env dc thing p.2))) ks [] s s1
    (by simpa [evals_eq_map, Function.comp_def] using hks) (fun k hk' => ⟨(hk k hk').1.hashable, (hk k hk').2⟩)
  have h2 : (ks.zip ((kvs.map (fun p => (eval env dc thing p.1, eval env dc thing p.2))).map (·.2))) =
      (ks.zip (kvs.map (·.2))).map (fun p => (p.1, eval env dc thing p.2)) := by
    simp only [List.map_map, Function.comp_def]
    rw [show kvs.map (fun x => eval env dc thing x.2) = (kvs.map (·.2)).map (eval env dc thing) by simp]
    rw [List.zip_map_right]
    rfl
  have h3 := mapFold_map env.utcoffset (eval env dc thing) (ks.zip (kvs.map (·.2))) []
  rw [List.map_nil] at h3
  rw [h2, h3] at h1
  rw [M.bind_ok h1, M.bind_apply, mapValsM_eq]
  simp only [List.map_map, Function.comp_def, evals_eq_map, mapOfList]
  rcases seqM _ s1 with ⟨_ | vs, s2⟩ <;> simp

/-- **C32.** A key whose value is a set or a mapping raises EngineError, before any value expression is
evaluated. -/
theorem mapping_literal_bad_key (env : Env) (dc : DecCtx) (thing : Value)
    (pre post : List (Expr × Expr)) (ke ve : Expr) (ks : List Value) (s s1 s2 : St) (k : Value)
    (t : DataType) (hks : seqM (evals env dc thing (pre.map (·.1))) s = (.ok ks, s1))
    (hk : ∀ k ∈ ks, k.hashable = true ∧ ∃ t, fromValue k = .ok t ∧ t.kind ≠ .set ∧ t.kind ≠ .mapping)
    (hke : eval env dc thing ke s1 = (.ok k, s2)) (hkt : fromValue k = .ok t)
    (ht : t.kind = .set ∨ t.kind = .mapping) :
    eval env dc thing (.mapping (pre ++ (ke, ve) :: post)) s = (.error (.eng .engine), s2) := by
  have hc : (t.isCompound && !t.isArray) = true := by
    cases t <;> simp_all [DataType.kind, DataType.isCompound, DataType.isScalar, DataType.isArray]
  have happ : ∀ (a b : List (M Value × M Value)) (acc : List (Value × M Value)) (s : St),
      mapKeysM env.utcoffset acc (a ++ b) s =
        (mapKeysM env.utcoffset acc a >>= fun acc' => mapKeysM env.utcoffset acc' b) s := by
    intro a b
    induction a with
    | nil => intro acc s; simp [mapKeysM]
    | cons p a ih =>
      obtain ⟨x, y⟩ := p
      intro acc s
      simp only [List.cons_append, mapKeysM, M.bind_apply]
      rcases x s with ⟨_ | v, s'⟩
      · rfl
      · simp only [M.lift_apply]
        rcases fromValue v with _ | t
        · rfl
        · simp only
          split
          · rfl
          · split
            · rw [ih, M.bind_apply]
            · rfl
  simp only [eval, evalPairs_eq_map, List.map_append, List.map_cons]
  apply M.bind_error
  rw [happ, M.bind_ok (mapKeysM_ok (off := env.utcoffset)
    (pre.map (fun p => (eval env dc thing p.1, eval env dc thing p.2))) ks [] s s1
    (by simpa [evals_eq_map, Function.comp_def] using hks) hk)]
  simp only [mapKeysM]
  rw [M.bind_ok hke, M.bind_ok (a := t) (s' := s2) (by simp [hkt])]
  simp [hc]

/-- `{1: a, 'x': 2, 1.0: 3}` is `{1: 3, 'x': 2}`, and `a` is not looked up. -/
example : runRaw sampleEnv (.mapping [(.floatLit "1", .sym "a" false), (.lit (.str "x"), .floatLit "2"),
    (.floatLit "1.0", .floatLit "3")]) .none =
    .ok (.map .ordered [(.dec (.fin false 1 0), .dec (.fin false 3 0)), (.str "x", .dec (.fin false 2 0))]) := by
  decide +kernel

end RE
