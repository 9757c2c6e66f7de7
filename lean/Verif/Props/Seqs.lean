import Verif.Props.Bits

/-!
# C21: indexes and slices
-/

namespace RE

set_option linter.unusedSimpArgs false

/-! ## Indexing -/

/-- Specification: what `c[i]` evaluates to (or raises), for operands that are already values. -/
def itemResult (env : Env) (dc : DecCtx) (c i : Value) : Except Err Value :=
  (eval env dc .none (.getItem (.lit c .undefined) (.lit i .undefined) false) St.init).1

/-- The result depends on the operand expressions only through their values. -/
theorem eval_item_values (env : Env) (dc : DecCtx) (thing : Value) (ce ie : Expr) (s s1 s2 : St)
    (c i : Value) (hc : eval env dc thing ce s = (.ok c, s1)) (hi : eval env dc thing ie s1 = (.ok i, s2)) :
    (eval env dc thing (.getItem ce ie false) s).1 = itemResult env dc c i := by
  unfold itemResult
  simp only [eval, M.bind_apply, hc, M.pure_apply]
  by_cases h : c = .none
  · simp [h, M.throw]
  · simp only [h, if_false, M.bind_apply, hi, M.pure_apply, M.lift_apply]
    rcases opGetItem env.utcoffset c i with e | (_ | v) <;> simp [M.throw, M.pure_apply]

/-- Specification: the sequence types and their elements as seen by an index: one character strings,
numbers, and (converted) members. -/
def Value.items (env : Env) : Value → Option (List Value)
  | .str s => some (s.toList.map fun c => .str (String.ofList [c]))
  | .bytes b => some (b.map fun x => .dec (.ofInt x.toNat))
  | .seq .tuple xs => some (xs.map (newValue env))
  | _ => .none

/-- Specification: element `i` of a list, counting from the end if `i` is negative. -/
def elementAt {α : Type} (xs : List α) (i : Int) : Option α :=
  if 0 ≤ i then xs[i.toNat]? else if -(xs.length : Int) ≤ i then xs[(xs.length + i).toNat]? else none

theorem elementAt_eq {α : Type} (xs : List α) (i : Int) :
    ((pyIndex xs.length i).bind fun n => xs[n]?) = elementAt xs i := by
  unfold pyIndex elementAt
  by_cases h : 0 ≤ i
  · simp only [h, if_true]
    by_cases h2 : i < xs.length
    · simp [h2]
    · simp only [h2, if_false, Option.bind_none]
      rw [List.getElem?_eq_none]
      omega
  · simp only [h, if_false]
    by_cases h2 : 0 ≤ i + xs.length
    · simp only [h2, if_true, Option.bind_some]
      rw [if_pos (by omega), Int.add_comm]
    · simp only [h2, if_false, Option.bind_none]
      rw [if_neg (by omega)]

theorem elementAt_map {α β : Type} (f : α → β) (xs : List α) (i : Int) :
    elementAt (xs.map f) i = (elementAt xs i).map f := by
  unfold elementAt
  simp only [List.length_map, List.getElem?_map]
  split
  · rfl
  · split <;> rfl

/-- **C21**: `s[i]` is element `i` of the string, bytes or array `s`, counted from the end if `i` is
negative; out of range is a LookupError. -/
theorem index_sequence (env : Env) (dc : DecCtx) (c : Value) (xs : List Value) (d : Dec) (i : Int)
    (hc : c.items env = some xs) (hd : d.isWhole i) :
    itemResult env dc c (.dec d) =
      match elementAt xs i with
      | some v => .ok v
      | none => .error (.eng .lookup) := by
  have hint := (assertInteger_dec d).resolve_right (fun h => h.1 ⟨i, hd⟩)
  obtain ⟨-, -, hint⟩ := hint
  have hto := toInt_whole hd
  have key : ∀ (ys : List Value), opGetItem env.utcoffset c (.dec d) = .ok (elementAt ys i) →
      c ≠ .none → ys.map (newValue env) = xs →
      itemResult env dc c (.dec d) =
      match elementAt xs i with
      | some v => .ok v
      | none => .error (.eng .lookup) := by
    intro ys h hn hxs
    unfold itemResult
    simp only [eval, M.bind_apply, M.pure_apply, hn, if_false, M.lift_apply, h]
    rw [← hxs, elementAt_map]
    cases elementAt ys i <;> simp [M.throw, M.pure_apply]
  cases c with
  | str s =>
    simp only [Value.items, Option.some.injEq] at hc
    refine key (s.toList.map fun c => .str (String.ofList [c])) ?_ (by simp) ?_
    · simp only [opGetItem, itemCheck, hint, except_ok_bind, pyGetItem, hto]
      rw [elementAt_map, ← elementAt_eq]
      congr 1
      cases pyIndex s.toList.length i <;> simp
    · rw [← hc, List.map_map]
      rfl
  | bytes b =>
    simp only [Value.items, Option.some.injEq] at hc
    refine key (b.map fun x => .int x.toNat) ?_ (by simp) ?_
    · simp only [opGetItem, itemCheck, hint, except_ok_bind, pyGetItem, hto]
      rw [elementAt_map, ← elementAt_eq]
      congr 1
      cases pyIndex b.length i <;> simp
    · rw [← hc, List.map_map]
      rfl
  | seq k ys =>
    cases k <;> simp only [Value.items, Option.some.injEq, reduceCtorEq] at hc
    refine key ys ?_ (by simp) hc
    simp only [opGetItem, itemCheck, hint, except_ok_bind, pyGetItem, hto]
    rw [elementAt_eq]
  | _ => simp [Value.items] at hc

/-- **C21**: an index that is not a whole number raises an EvaluationError. -/
theorem index_not_whole (env : Env) (dc : DecCtx) (c : Value) (xs : List Value)
    (hc : c.items env = some xs) :
    (∀ d : Dec, (¬ ∃ i, d.isWhole i) → itemResult env dc c (.dec d) = .error (.eng .evaluation)) ∧
    (∀ v, isNumeric v = false → itemResult env dc c v = .error (.eng .evaluation)) := by
  have key : ∀ v, assertInteger v = .error .mismatch →
      itemResult env dc c v = .error (.eng .evaluation) := by
    intro v hv
    have h1 : opGetItem env.utcoffset c v = .error .mismatch := by
      unfold opGetItem
      cases c with
      | str s => simp only [itemCheck, hv]; rfl
      | bytes b => simp only [itemCheck, hv]; rfl
      | seq k ys =>
        cases k <;> simp only [Value.items, reduceCtorEq] at hc
        simp only [itemCheck, hv]; rfl
      | _ => simp [Value.items] at hc
    have hn : c ≠ .none := by rintro rfl; simp [Value.items] at hc
    unfold itemResult
    simp only [eval, M.bind_apply, M.pure_apply, hn, if_false, M.lift_apply, h1]
  refine ⟨fun d h => key _ ((assertInteger_dec d).resolve_left (fun ⟨i, hi, _⟩ => h ⟨i, hi⟩)).2,
    fun v hv => key v ?_⟩
  cases v <;> first | rfl | simp [isNumeric] at hv

/-! ## Slices -/

/-- Specification: what `c[a:b]` evaluates to (or raises), for operands that are already values. -/
def sliceResult (env : Env) (dc : DecCtx) (c a b : Value) : Except Err Value :=
  (eval env dc .none (.getSlice (.lit c .undefined) (.lit a .undefined) (.lit b .undefined) false)
    St.init).1

theorem eval_slice_values (env : Env) (dc : DecCtx) (thing : Value) (ce ae be : Expr)
    (s s1 s2 s3 : St) (c a b : Value) (hc : eval env dc thing ce s = (.ok c, s1))
    (ha : eval env dc thing ae s1 = (.ok a, s2)) (hb : eval env dc thing be s2 = (.ok b, s3)) :
    (eval env dc thing (.getSlice ce ae be false) s).1 = sliceResult env dc c a b := by
  unfold sliceResult
  simp only [eval, M.bind_apply, hc, M.pure_apply]
  by_cases h : c = .none
  · simp [h, M.throw]
  · simp only [h, if_false, evalSlice, M.bind_apply, ha, M.pure_apply, M.lift_apply]
    rcases sliceArg a with e | x
    · rfl
    · simp only [hb, M.pure_apply]
      rcases sliceArg b with e | y
      · rfl
      · simp only
        rcases pyGetSlice c x y with e | v <;> rfl

/-- Specification: a slice bound: absent (null) or a whole number. -/
inductive Bound : Value → Option Int → Prop
  | absent : Bound .none none
  | at {d : Dec} {i : Int} (h : d.isWhole i) : Bound (.dec d) (some i)

/-- Specification: the position a slice bound stands for in a sequence of length `n`: from the end if
negative, cut to the sequence. -/
def cut (n : Nat) (i : Int) : Nat := (max 0 (min (n : Int) (if i < 0 then n + i else i))).toNat

/-- Specification: the elements of `xs` from position `a` up to, not including, position `b`. -/
def between {α : Type} (xs : List α) (a b : Nat) : List α :=
  (List.range (b - a)).filterMap (fun j => xs[a + j]?)

theorem between_eq {α : Type} (xs : List α) (a b : Nat) : between xs a b = (xs.take b).drop a := by
  unfold between
  apply List.ext_getElem?
  intro n
  rw [List.getElem?_drop, List.getElem?_take]
  have hfm : ∀ (m : Nat) (k : Nat), ((List.range m).filterMap (fun j => xs[a + j]?))[k]? =
      if k < m then xs[a + k]? else none := by
    intro m
    induction m with
    | zero => intro k; simp
    | succ m ih =>
      intro k
      rw [List.range_succ, List.filterMap_append, List.filterMap_cons, List.filterMap_nil]
      have hlen : ((List.range m).filterMap (fun j => xs[a + j]?)).length = min m (xs.length - a) := by
        by_contra hne
        rcases lt_or_gt_of_ne hne with h | h
        · have h1 := ih (((List.range m).filterMap (fun j => xs[a + j]?)).length)
          rw [List.getElem?_eq_none (le_refl _), if_pos (by omega), eq_comm, List.getElem?_eq_none_iff] at h1
          omega
        · have h1 := ih (min m (xs.length - a))
          rw [List.getElem?_eq_getElem h] at h1
          by_cases hm : min m (xs.length - a) < m
          · rw [if_pos hm, eq_comm, List.getElem?_eq_some_iff] at h1
            obtain ⟨h2, -⟩ := h1
            omega
          · rw [if_neg hm] at h1; cases h1
      cases hx : xs[a + m]? with
      | none =>
        simp only [List.append_nil, ih]
        rw [List.getElem?_eq_none_iff] at hx
        by_cases h1 : k < m
        · rw [if_pos h1, if_pos (by omega)]
        · rw [if_neg h1]
          split
          · rw [eq_comm, List.getElem?_eq_none_iff]; omega
          · rfl
      | some y =>
        have hlt : a + m < xs.length := by
          rw [List.getElem?_eq_some_iff] at hx; exact hx.1
        rw [List.getElem?_append, hlen]
        by_cases h1 : k < min m (xs.length - a)
        · rw [if_pos h1, ih, if_pos (by omega), if_pos (by omega)]
        · rw [if_neg h1]
          by_cases h2 : k = m
          · subst h2
            rw [if_pos (by omega), show k - min k (xs.length - a) = 0 by omega, hx]
            rfl
          · rw [if_neg (by omega)]
            rw [List.getElem?_eq_none_iff]
            simp; omega
  rw [hfm]
  by_cases h : n < b - a
  · rw [if_pos h, if_pos (by omega)]
  · rw [if_neg h, if_neg (by omega)]

theorem sliceBound_eq (n : Nat) (i : Int) : sliceBound n i = cut n i := by
  unfold sliceBound cut
  split <;> omega

theorem sliceArg_bound {v : Value} {i : Option Int} (h : Bound v i) : sliceArg v = .ok i := by
  cases h with
  | absent => rfl
  | «at» h =>
    obtain ⟨-, -, hint⟩ := (assertInteger_dec _).resolve_right (fun h' => h'.1 ⟨_, h⟩)
    simp only [sliceArg, hint, except_ok_bind, toInt_whole h]

/-- Specification: the positions selected by a slice. -/
def startAt (n : Nat) : Option Int → Nat
  | none => 0
  | some i => cut n i

def stopAt (n : Nat) : Option Int → Nat
  | none => n
  | some i => cut n i

theorem pySlice_eq {α : Type} (xs : List α) (a b : Option Int) :
    pySlice xs a b = between xs (startAt xs.length a) (stopAt xs.length b) := by
  rw [between_eq]
  unfold pySlice
  cases a <;> cases b <;> simp only [startAt, stopAt, sliceBound_eq]

theorem sliceResult_eq (env : Env) (dc : DecCtx) (c a b : Value) (i j : Option Int) (ha : Bound a i)
    (hb : Bound b j) (hc : c ≠ .none) :
    sliceResult env dc c a b = (pyGetSlice c i j).map (coerce env.utcoffset) := by
  unfold sliceResult
  simp only [eval, M.bind_apply, M.pure_apply, hc, if_false, evalSlice, M.lift_apply, sliceArg_bound ha,
    sliceArg_bound hb]
  rcases pyGetSlice c i j with e | v <;> rfl

/-- **C21**: a slice of a string consists of the characters between the two positions … -/
theorem slice_string (env : Env) (dc : DecCtx) (s : String) (a b : Value) (i j : Option Int)
    (ha : Bound a i) (hb : Bound b j) :
    sliceResult env dc (.str s) a b = .ok (.str (String.ofList
      (between s.toList (startAt s.toList.length i) (stopAt s.toList.length j)))) := by
  rw [sliceResult_eq env dc _ a b i j ha hb (by simp), ← pySlice_eq]
  rfl

/-- … of bytes, of the bytes … -/
theorem slice_bytes (env : Env) (dc : DecCtx) (s : List UInt8) (a b : Value) (i j : Option Int)
    (ha : Bound a i) (hb : Bound b j) :
    sliceResult env dc (.bytes s) a b = .ok (.bytes (between s (startAt s.length i) (stopAt s.length j))) := by
  rw [sliceResult_eq env dc _ a b i j ha hb (by simp), ← pySlice_eq]
  rfl

/-- … and of an array (of values already converted), of the members. -/
theorem slice_array (env : Env) (dc : DecCtx) (xs : List Value) (a b : Value) (i j : Option Int)
    (ha : Bound a i) (hb : Bound b j) (hx : ∀ x ∈ xs, coerce env.utcoffset x = x) :
    sliceResult env dc (.tuple xs) a b =
      .ok (.tuple (between xs (startAt xs.length i) (stopAt xs.length j))) := by
  rw [sliceResult_eq env dc _ a b i j ha hb (by simp [Value.tuple]), ← pySlice_eq]
  have hc : ∀ ys : List Value, (∀ y ∈ ys, coerce env.utcoffset y = y) → coerceList env.utcoffset ys = ys := by
    intro ys
    induction ys with
    | nil => intro _; rfl
    | cons y ys ih =>
      intro h
      rw [coerceList, h y (by simp), ih (fun z hz => h z (by simp [hz]))]
  simp only [pyGetSlice, Value.tuple, Except.map, coerce]
  rw [hc]
  intro y hy
  apply hx
  unfold pySlice at hy
  exact List.mem_of_mem_take (List.mem_of_mem_drop hy)

theorem zero_whole : (Dec.ofInt 0).isWhole 0 := by
  refine ⟨by norm_num [Dec.ofInt, Dec.num, finVal], ?_⟩
  have : (0 : Nat) < doubleLimit := by decide +kernel
  have h2 : ((0 : Nat) : ℚ) < (doubleLimit : ℚ) := by exact_mod_cast this
  simpa using h2

theorem startAt_zero (n : Nat) : startAt n (some 0) = 0 := by simp [startAt, cut]

theorem between_split {α : Type} (xs : List α) (k : Nat) :
    between xs 0 k ++ between xs k xs.length = xs := by
  rw [between_eq, between_eq]
  simp

/-- **C21**: `s[:k] + s[k:] == s` for every whole number `k` (an omitted start is `0`, an omitted stop
is null), for strings … -/
theorem slice_split_string (env : Env) (dc : DecCtx) (s : String) (d : Dec) (k : Int) (hd : d.isWhole k) :
    ∃ u w, sliceResult env dc (.str s) (.dec (.ofInt 0)) (.dec d) = .ok u ∧
      sliceResult env dc (.str s) (.dec d) .none = .ok w ∧ binResult env dc .add u w = .ok (.str s) := by
  refine ⟨_, _, slice_string env dc s _ _ _ _ (.at zero_whole) (.at hd), slice_string env dc s _ _ _ _ (.at hd) .absent, ?_⟩
  rw [binResult_add]
  change Except.ok (Value.str (_ ++ _)) = _
  rw [← String.ofList_append]
  rw [startAt_zero]
  simp only [startAt, stopAt, between_split]
  rw [String.ofList_toList]

/-- … and bytes; … -/
theorem slice_split_bytes (env : Env) (dc : DecCtx) (s : List UInt8) (d : Dec) (k : Int) (hd : d.isWhole k) :
    ∃ u w, sliceResult env dc (.bytes s) (.dec (.ofInt 0)) (.dec d) = .ok u ∧
      sliceResult env dc (.bytes s) (.dec d) .none = .ok w ∧ binResult env dc .add u w = .ok (.bytes s) := by
  refine ⟨_, _, slice_bytes env dc s _ _ _ _ (.at zero_whole) (.at hd), slice_bytes env dc s _ _ _ _ (.at hd) .absent, ?_⟩
  rw [binResult_add]
  change Except.ok (Value.bytes (_ ++ _)) = _
  rw [startAt_zero]
  simp only [startAt, stopAt, between_split]

/-- … for arrays (which have no `+`) the two slices are the two parts of the array. -/
theorem slice_split_array (env : Env) (dc : DecCtx) (xs : List Value) (d : Dec) (k : Int)
    (hd : d.isWhole k) (hx : ∀ x ∈ xs, coerce env.utcoffset x = x) :
    ∃ us ws, sliceResult env dc (.tuple xs) (.dec (.ofInt 0)) (.dec d) = .ok (.tuple us) ∧
      sliceResult env dc (.tuple xs) (.dec d) .none = .ok (.tuple ws) ∧ us ++ ws = xs :=
  ⟨_, _, slice_array env dc xs _ _ _ _ (.at zero_whole) (.at hd) hx, slice_array env dc xs _ _ _ _ (.at hd) .absent hx,
    by rw [startAt_zero]; exact between_split _ _⟩

/-- **C21**: a slice bound that is neither null nor a whole number raises an EvaluationError. -/
theorem slice_not_whole (env : Env) (dc : DecCtx) (c a b : Value) (hc : c ≠ .none)
    (h : (∃ d : Dec, a = .dec d ∧ ¬ ∃ i, d.isWhole i) ∨ (isNumeric a = false ∧ a ≠ .none) ∨
      ((∃ i, Bound a i) ∧ ((∃ d : Dec, b = .dec d ∧ ¬ ∃ i, d.isWhole i) ∨ (isNumeric b = false ∧ b ≠ .none)))) :
    sliceResult env dc c a b = .error (.eng .evaluation) := by
  have key : ∀ v, (∃ d : Dec, v = .dec d ∧ ¬ ∃ i, d.isWhole i) ∨ (isNumeric v = false ∧ v ≠ .none) →
      sliceArg v = .error .mismatch := by
    rintro v (⟨d, rfl, h⟩ | ⟨h1, h2⟩)
    · simp only [sliceArg]
      rw [((assertInteger_dec d).resolve_left (fun ⟨i, hi, _⟩ => h ⟨i, hi⟩)).2]
      rfl
    · cases v <;> first | exact absurd rfl h2 | rfl | simp [isNumeric] at h1
  unfold sliceResult
  simp only [eval, M.bind_apply, M.pure_apply, hc, if_false, evalSlice, M.lift_apply]
  rcases h with h | h | ⟨⟨i, h1⟩, h⟩
  · rw [key a (.inl h)]
  · rw [key a (.inr h)]
  · rw [sliceArg_bound h1]
    simp only
    rw [key b h]

/-- Witness for C21. -/
theorem index_witness :
    (Dec.fin true 10 (-1)).isWhole (-1) ∧
    itemResult sampleEnv .default (.str "abc") (.dec (.fin true 10 (-1))) = .ok (.str "c") ∧
    itemResult sampleEnv .default (.str "abc") (.dec (.fin false 3 0)) = .error (.eng .lookup) ∧
    sliceResult sampleEnv .default (.str "abc") (.dec (.fin true 2 0)) (.dec (.fin false 9 0)) =
      .ok (.str "bc") := by
  refine ⟨⟨by norm_num [Dec.num, finVal], ?_⟩, by decide +kernel, by decide +kernel, by decide +kernel⟩
  have : (1 : Nat) < doubleLimit := by decide +kernel
  have h2 : ((1 : Nat) : ℚ) < (doubleLimit : ℚ) := by exact_mod_cast this
  simpa using h2

end RE
