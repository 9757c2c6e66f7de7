import Verif.Props.Alpha
import Verif.Props.WellFormed

/-!
# Sets have no order (C85)

Values that differ only in the order in which the members of sets are listed (`Shuffled`): no rule in which no function is
called, no set is made an array and no comprehension goes through a set can tell them apart.
-/

set_option linter.unusedSimpArgs false
set_option linter.unusedVariables false
set_option linter.unusedSectionVars false

namespace RE

mutual
/-- The values differ only in the order in which the members of sets are listed. -/
inductive Shuffled : Value → Value → Prop
  | same (v : Value) (h : v.isFlat = true) : Shuffled v v
  | seq (k : SeqKind) {xs ys : List Value} (h : ShuffledAll xs ys) : Shuffled (.seq k xs) (.seq k ys)
  | set {xs ys : List Value} (h : xs.Perm ys) : Shuffled (.set xs) (.set ys)
  | map (k : MapKind) {xs ys : List (Value × Value)} (h : ShuffledItems xs ys) : Shuffled (.map k xs) (.map k ys)
/-- members of arrays -/
inductive ShuffledAll : List Value → List Value → Prop
  | nil : ShuffledAll [] []
  | cons {x y : Value} {xs ys : List Value} (h : Shuffled x y) (hs : ShuffledAll xs ys) : ShuffledAll (x :: xs) (y :: ys)
/-- items of mappings -/
inductive ShuffledItems : List (Value × Value) → List (Value × Value) → Prop
  | nil : ShuffledItems [] []
  | cons (k : Value) {v w : Value} {xs ys : List (Value × Value)} (h : Shuffled v w)
      (hs : ShuffledItems xs ys) : ShuffledItems ((k, v) :: xs) ((k, w) :: ys)
end

mutual
theorem Shuffled.refl : ∀ v : Value, Shuffled v v
  | .seq k xs => .seq k (shuffled_all xs)
  | .set xs => .set (.refl _)
  | .map k kvs => .map k (shuffled_items kvs)
  | .none | .bool _ | .int _ | .float _ | .dec _ | .str _ | .bytes _ | .date _ | .datetime .. | .timedelta _
  | .builtinFn _ | .userFn _ | .method .. | .obj _ | .undef => .same _ rfl
theorem shuffled_all : ∀ xs : List Value, ShuffledAll xs xs
  | [] => .nil
  | x :: xs => .cons (.refl x) (shuffled_all xs)
theorem shuffled_items : ∀ xs : List (Value × Value), ShuffledItems xs xs
  | [] => .nil
  | (k, v) :: xs => .cons k (.refl v) (shuffled_items xs)
end

/-! ### Lists -/

theorem ShuffledAll.length : ∀ {xs ys : List Value}, ShuffledAll xs ys → ys.length = xs.length
  | _, _, .nil => rfl
  | _, _, .cons h hs => by simp [ShuffledAll.length hs]
theorem ShuffledItems.length : ∀ {xs ys : List (Value × Value)}, ShuffledItems xs ys → ys.length = xs.length
  | _, _, .nil => rfl
  | _, _, .cons k h hs => by simp [ShuffledItems.length hs]
theorem ShuffledAll.any {f g : Value → Bool} (hf : ∀ {a b}, Shuffled a b → g b = f a) :
    ∀ {xs ys : List Value}, ShuffledAll xs ys → ys.any g = xs.any f
  | _, _, .nil => rfl
  | _, _, .cons h hs => by simp [hf h, ShuffledAll.any hf hs]
theorem ShuffledItems.any {f g : Value → Value → Bool} (hf : ∀ {k v w}, Shuffled v w → g k w = f k v) :
    ∀ {xs ys : List (Value × Value)}, ShuffledItems xs ys → ys.any (fun p => g p.1 p.2) = xs.any (fun p => f p.1 p.2)
  | _, _, .nil => rfl
  | _, _, .cons k h hs => by simp only [List.any_cons, hf h, ShuffledItems.any (f := f) (g := g) hf hs]
theorem ShuffledItems.keys : ∀ {xs ys : List (Value × Value)}, ShuffledItems xs ys → ys.map (·.1) = xs.map (·.1)
  | _, _, .nil => rfl
  | _, _, .cons k h hs => by simp [ShuffledItems.keys hs]
theorem ShuffledItems.vals : ∀ {xs ys : List (Value × Value)}, ShuffledItems xs ys →
    ShuffledAll (xs.map (·.2)) (ys.map (·.2))
  | _, _, .nil => .nil
  | _, _, .cons k h hs => .cons h hs.vals
theorem ShuffledAll.take : ∀ {xs ys : List Value} (n : Nat), ShuffledAll xs ys → ShuffledAll (xs.take n) (ys.take n)
  | _, _, 0, h => by simpa using ShuffledAll.nil
  | _, _, n + 1, .nil => .nil
  | _, _, n + 1, .cons h hs => .cons h (ShuffledAll.take n hs)
theorem ShuffledAll.drop : ∀ {xs ys : List Value} (n : Nat), ShuffledAll xs ys → ShuffledAll (xs.drop n) (ys.drop n)
  | _, _, 0, h => h
  | _, _, n + 1, .nil => .nil
  | _, _, n + 1, .cons h hs => ShuffledAll.drop n hs
theorem ShuffledAll.get : ∀ {xs ys : List Value} (n : Nat), ShuffledAll xs ys →
    (xs[n]? = none ∧ ys[n]? = none) ∨ ∃ a b, xs[n]? = some a ∧ ys[n]? = some b ∧ Shuffled a b
  | _, _, n, .nil => .inl ⟨rfl, rfl⟩
  | _, _, 0, .cons h hs => .inr ⟨_, _, rfl, rfl, h⟩
  | _, _, n + 1, .cons h hs => by simpa using ShuffledAll.get n hs

/-! ### Hashable values -/

mutual
theorem shuffled_hashable : ∀ {a b : Value}, Shuffled a b → b.hashable = a.hashable
  | _, _, .same v h => rfl
  | _, _, .seq .tuple h => by simp only [Value.hashable, shuffled_allHashable h]
  | _, _, .seq .list h => by simp only [Value.hashable]
  | _, _, .seq .range h => by simp only [Value.hashable]
  | _, _, .set h => by simp only [Value.hashable]
  | _, _, .map _ h => by simp only [Value.hashable]
theorem shuffled_allHashable : ∀ {a b : List Value}, ShuffledAll a b → Value.allHashable b = Value.allHashable a
  | _, _, .nil => rfl
  | _, _, .cons h hs => by simp only [Value.allHashable, shuffled_hashable h, shuffled_allHashable hs]
end

theorem shuffled_ints : ∀ {xs ys : List Value}, ShuffledAll xs ys → (∀ x ∈ xs, ∃ i, x = Value.int i) → ys = xs
  | _, _, .nil, _ => rfl
  | x :: _, _, .cons h hs, hi => by
    obtain ⟨i, rfl⟩ := hi x (by simp)
    cases h
    rw [shuffled_ints hs fun x hx => hi x (by simp [hx])]

mutual
/-- hashable values contain no sets -/
theorem shuffled_eq {off : TzDb} : ∀ {a b : Value}, Shuffled a b → a.WF off → a.hashable = true → b = a
  | _, _, .same v h, _, _ => rfl
  | _, _, .seq .tuple h, hw, hh => by
    rw [shuffled_allEq h (by simpa [Value.WF] using hw) (by simpa [Value.hashable] using hh)]
  | _, _, .seq .list h, _, hh => by simp [Value.hashable] at hh
  | _, _, .seq .range h, hw, hh => by rw [shuffled_ints h (hw.2 rfl)]
  | _, _, .set h, _, hh => by simp [Value.hashable] at hh
  | _, _, .map _ h, _, hh => by simp [Value.hashable] at hh
theorem shuffled_allEq {off : TzDb} : ∀ {a b : List Value}, ShuffledAll a b → Value.AllWF off a →
    Value.allHashable a = true → b = a
  | _, _, .nil, _, _ => rfl
  | _, _, .cons h hs, hw, hh => by
    simp only [Value.allHashable, Bool.and_eq_true] at hh
    rw [shuffled_eq h hw.1 hh.1, shuffled_allEq hs hw.2 hh.2]
end

/-! ### Equality -/

theorem pySubset_all {off : TzDb} : ∀ {xs ys : List Value}, pySubset off xs ys = xs.all fun a => ys.any fun b => pyEq off a b
  | [], ys => by simp [pySubset]
  | x :: xs, ys => by simp [pySubset, pySubset_all (xs := xs)]

theorem pySubset_perm {off : TzDb} {xs xs' ys ys' : List Value} (hx : xs.Perm xs') (hy : ys.Perm ys') :
    pySubset off xs' ys' = pySubset off xs ys := by
  rw [pySubset_all, pySubset_all, hx.all_eq]
  congr 1
  funext a
  rw [hy.any_eq]

theorem pySubmap_all {off : TzDb} : ∀ {xs ys : List (Value × Value)}, pySubmap off xs ys =
    xs.all fun a => ys.any fun b => pyEq off a.1 b.1 && pyEq off a.2 b.2
  | [], ys => by simp [pySubmap]
  | (k, v) :: xs, ys => by simp [pySubmap, pySubmap_all (xs := xs)]

theorem pyEqKeys_keys {off : TzDb} : ∀ {xs ys : List (Value × Value)},
    pyEqKeys off xs ys = pyEqSeq off (xs.map (·.1)) (ys.map (·.1))
  | [], [] => by simp [pyEqKeys, pyEqSeq]
  | [], _ :: _ => by simp [pyEqKeys, pyEqSeq]
  | (k, v) :: xs, [] => by simp [pyEqKeys, pyEqSeq]
  | (k, v) :: xs, (l, w) :: ys => by simp [pyEqKeys, pyEqSeq, pyEqKeys_keys (xs := xs)]

mutual
theorem shuffled_pyEq {off : TzDb} : ∀ {a a' b b' : Value}, Shuffled a a' → Shuffled b b' →
    pyEq off a' b' = pyEq off a b
  | _, _, _, _, .same v h, .same w h' => rfl
  | _, _, _, _, .same v h, .seq k h' => by cases v <;> simp [Value.isFlat] at h <;> simp [pyEq, Value.asNumber]
  | _, _, _, _, .same v h, .set h' => by cases v <;> simp [Value.isFlat] at h <;> simp [pyEq, Value.asNumber]
  | _, _, _, _, .same v h, .map k h' => by cases v <;> simp [Value.isFlat] at h <;> simp [pyEq, Value.asNumber]
  | _, _, _, _, .seq k h, .same w h' => by cases w <;> simp [Value.isFlat] at h' <;> simp [pyEq]
  | _, _, _, _, .seq k h, .seq l h' => by simp only [pyEq, shuffled_pyEqSeq h h']
  | _, _, _, _, .seq k h, .set h' => by simp [pyEq]
  | _, _, _, _, .seq k h, .map l h' => by simp [pyEq]
  | _, _, _, _, .set h, .same w h' => by cases w <;> simp [Value.isFlat] at h' <;> simp [pyEq]
  | _, _, _, _, .set h, .seq l h' => by simp [pyEq]
  | _, _, _, _, .set h, .set h' => by simp only [pyEq, h.length_eq, h'.length_eq, pySubset_perm h h']
  | _, _, _, _, .set h, .map l h' => by simp [pyEq]
  | _, _, _, _, .map k h, .same w h' => by cases w <;> simp [Value.isFlat] at h' <;> simp [pyEq]
  | _, _, _, _, .map k h, .seq l h' => by simp [pyEq]
  | _, _, _, _, .map k h, .set h' => by simp [pyEq]
  | _, _, _, _, .map k h, .map l h' => by
    simp only [pyEq, h.length, h'.length, shuffled_pySubmap h h', pyEqKeys_keys, h.keys, h'.keys]
theorem shuffled_pyEqSeq {off : TzDb} : ∀ {a a' b b' : List Value}, ShuffledAll a a' → ShuffledAll b b' →
    pyEqSeq off a' b' = pyEqSeq off a b
  | _, _, _, _, .nil, .nil => rfl
  | _, _, _, _, .nil, .cons h hs => by simp [pyEqSeq]
  | _, _, _, _, .cons h hs, .nil => by simp [pyEqSeq]
  | _, _, _, _, .cons h hs, .cons h' hs' => by simp only [pyEqSeq, shuffled_pyEq h h', shuffled_pyEqSeq hs hs']
theorem shuffled_pySubmap {off : TzDb} : ∀ {a a' b b' : List (Value × Value)}, ShuffledItems a a' → ShuffledItems b b' →
    pySubmap off a' b' = pySubmap off a b
  | _, _, _, _, .nil, _ => by simp [pySubmap]
  | _, _, _, _, .cons k h hs, hb => by
    simp only [pySubmap, shuffled_pySubmap hs hb]
    rw [ShuffledItems.any (f := fun l w => pyEq off k l && pyEq off _ w) (g := fun l w => pyEq off k l && pyEq off _ w)
      (fun h' => by rw [shuffled_pyEq h h']) hb]
end

/-! ### Types -/

theorem memberType_anon {ts : List DataType} (h : ∀ t ∈ ts, t.anon = t) : (memberType ts).anon = memberType ts := by
  unfold memberType
  split
  · rfl
  · rename_i t rest he
    split
    · have : t ∈ ts.filter (fun t => !DataType.eq t .null) := by rw [he]; simp
      exact h t (List.mem_filter.1 this).1
    · rfl

theorem memberType_perm {ts us : List DataType} (h : ∀ t ∈ ts, t.anon = t) (hp : ts.Perm us) :
    memberType us = memberType ts := by
  have hf := hp.filter (fun t => !DataType.eq t .null)
  have ha : ∀ t ∈ ts.filter (fun t => !DataType.eq t .null), t.anon = t := fun t ht => h t (List.mem_filter.1 ht).1
  unfold memberType
  generalize ts.filter (fun t => !DataType.eq t .null) = A at hf ha
  generalize us.filter (fun t => !DataType.eq t .null) = B at hf
  have hb : ∀ t ∈ B, t.anon = t := fun t ht => ha t (hf.mem_iff.2 ht)
  have heq : ∀ {a b : DataType}, a.anon = a → b.anon = b → (DataType.eq a b = true ↔ a = b) := by
    intro a b h1 h2; rw [dataType_eq_iff, h1, h2]
  rcases A with _ | ⟨a, A⟩
  · rw [hf.nil_eq]
  · rcases B with _ | ⟨b, B⟩
    · exact absurd hf.symm.nil_eq (by simp)
    · have h1 : (A.all (fun u => DataType.eq u a) = true) ↔ ∀ u ∈ a :: A, u = a := by
        simp only [List.all_eq_true, List.mem_cons, forall_eq_or_imp, true_and]
        exact ⟨fun h u hu => (heq (ha u (by simp [hu])) (ha a (by simp))).1 (h u hu),
          fun h u hu => (heq (ha u (by simp [hu])) (ha a (by simp))).2 (h u hu)⟩
      have h2 : (B.all (fun u => DataType.eq u b) = true) ↔ ∀ u ∈ b :: B, u = b := by
        simp only [List.all_eq_true, List.mem_cons, forall_eq_or_imp, true_and]
        exact ⟨fun h u hu => (heq (hb u (by simp [hu])) (hb b (by simp))).1 (h u hu),
          fun h u hu => (heq (hb u (by simp [hu])) (hb b (by simp))).2 (h u hu)⟩
      have hm : ∀ u, u ∈ a :: A ↔ u ∈ b :: B := fun u => hf.mem_iff
      by_cases hA : A.all (fun u => DataType.eq u a) = true
      · have hA' := h1.1 hA
        have hba : b = a := hA' b ((hm b).2 (by simp))
        have hB : B.all (fun u => DataType.eq u b) = true := h2.2 fun u hu => by rw [hba]; exact hA' u ((hm u).2 hu)
        simp only [if_pos hA, if_pos hB]; exact hba
      · have hB : ¬ B.all (fun u => DataType.eq u b) = true := by
          intro hB
          have hB' := h2.1 hB
          have hab : a = b := hB' a ((hm a).1 (by simp))
          exact hA (h1.2 fun u hu => by rw [hab]; exact hB' u ((hm u).1 hu))
        simp only [hA, hB, if_false, Bool.false_eq_true]

mutual
theorem fromValue_anon : ∀ (v : Value) {t : DataType}, fromValue v = .ok t → t.anon = t
  | .seq _ xs, t, h | .set xs, t, h => by
    simp only [fromValue, except_bind_ok, Except.ok.injEq] at h
    obtain ⟨ts, hts, rfl⟩ := h
    simp only [DataType.anon, memberType_anon (typesOf_anon xs hts)]
  | .map _ kvs, t, h => by
    simp only [fromValue, except_bind_ok, mkMappingType] at h
    obtain ⟨ks, hks, vs, hvs, h⟩ := h
    split at h <;> cases h
    simp only [DataType.anon, memberType_anon (typesOfKeys_anon kvs hks), memberType_anon (typesOfVals_anon kvs hvs)]
  | .none, _, h | .bool _, _, h | .int _, _, h | .float _, _, h | .dec _, _, h | .str _, _, h | .bytes _, _, h
  | .date _, _, h | .datetime .., _, h | .timedelta _, _, h | .builtinFn _, _, h | .userFn _, _, h | .method .., _, h => by
    cases h; rfl
  | .obj _, _, h | .undef, _, h => by cases h
theorem typesOf_anon : ∀ (xs : List Value) {ts : List DataType}, typesOf xs = .ok ts → ∀ t ∈ ts, t.anon = t
  | [], ts, h => by cases h; simp
  | x :: xs, ts, h => by
    simp only [typesOf, except_bind_ok, Except.ok.injEq] at h
    obtain ⟨t, ht, us, hus, rfl⟩ := h
    simpa [fromValue_anon x ht] using typesOf_anon xs hus
theorem typesOfKeys_anon : ∀ (xs : List (Value × Value)) {ts : List DataType}, typesOfKeys xs = .ok ts → ∀ t ∈ ts, t.anon = t
  | [], ts, h => by cases h; simp
  | (x, y) :: xs, ts, h => by
    simp only [typesOfKeys, except_bind_ok, Except.ok.injEq] at h
    obtain ⟨t, ht, us, hus, rfl⟩ := h
    simpa [fromValue_anon x ht] using typesOfKeys_anon xs hus
theorem typesOfVals_anon : ∀ (xs : List (Value × Value)) {ts : List DataType}, typesOfVals xs = .ok ts → ∀ t ∈ ts, t.anon = t
  | [], ts, h => by cases h; simp
  | (x, y) :: xs, ts, h => by
    simp only [typesOfVals, except_bind_ok, Except.ok.injEq] at h
    obtain ⟨t, ht, us, hus, rfl⟩ := h
    simpa [fromValue_anon y ht] using typesOfVals_anon xs hus
end

section
variable {off : TzDb}

mutual
theorem hashable_error : ∀ (v : Value) {e : Err}, v.hashable = true → (v.WF off) → fromValue v = .error e → e = .py .typeError
  | .seq .tuple xs, e, hh, hw, h => by
    simp only [fromValue] at h
    rcases ht : typesOf xs with e' | ts <;> rw [ht] at h <;> cases h
    exact hashable_errors xs (by simpa [Value.hashable] using hh) (by simpa [Value.WF] using hw) ht
  | .seq .list xs, e, hh, _, h | .set xs, e, hh, _, h | .map _ xs, e, hh, _, h => by simp [Value.hashable] at hh
  | .seq .range xs, e, hh, hw, h => by
    have hx : ∀ ys : List Value, (∀ x ∈ ys, ∃ i, x = Value.int i) → ∃ ts, typesOf ys = .ok ts := by
      intro ys
      induction ys with
      | nil => intro; exact ⟨[], rfl⟩
      | cons y ys ih =>
        intro h
        obtain ⟨i, rfl⟩ := h y (by simp)
        obtain ⟨ts, hts⟩ := ih fun x hx => h x (by simp [hx])
        exact ⟨.float :: ts, by simp only [typesOf, fromValue, hts]; rfl⟩
    obtain ⟨ts, hts⟩ := hx xs (hw.2 rfl)
    simp only [fromValue, hts] at h
    cases h
  | .none, _, _, _, h | .bool _, _, _, _, h | .int _, _, _, _, h | .float _, _, _, _, h | .dec _, _, _, _, h
  | .str _, _, _, _, h | .bytes _, _, _, _, h | .date _, _, _, _, h | .datetime .., _, _, _, h | .timedelta _, _, _, _, h
  | .builtinFn _, _, _, _, h | .userFn _, _, _, _, h | .method .., _, _, _, h => by cases h
  | .obj _, _, _, _, h | .undef, _, _, _, h => by cases h; rfl
theorem hashable_errors : ∀ (xs : List Value) {e : Err}, Value.allHashable xs = true → Value.AllWF off xs →
    typesOf xs = .error e → e = .py .typeError
  | [], e, _, _, h => by cases h
  | x :: xs, e, hh, hw, h => by
    simp only [Value.allHashable, Bool.and_eq_true] at hh
    simp only [typesOf] at h
    rcases ht : fromValue x with e' | t <;> rw [ht] at h
    · cases h; exact hashable_error x hh.1 hw.1 ht
    · simp only [except_ok_bind] at h
      rcases hts : typesOf xs with e' | ts <;> rw [hts] at h
      · cases h; exact hashable_errors xs hh.2 hw.2 hts
      · cases h
end

theorem typesOf_perm {xs ys : List Value} (hp : xs.Perm ys)
    (he : ∀ x ∈ xs, ∀ e, fromValue x = .error e → e = .py .typeError) :
    (∃ ts us, typesOf xs = .ok ts ∧ typesOf ys = .ok us ∧ ts.Perm us) ∨
      (typesOf xs = .error (.py .typeError) ∧ typesOf ys = .error (.py .typeError)) := by
  induction hp with
  | nil => exact .inl ⟨[], [], rfl, rfl, .nil⟩
  | @cons x xs ys hp ih =>
    rcases hx : fromValue x with e | t
    · obtain rfl := he x (by simp) e hx
      right; simp only [typesOf, hx]; exact ⟨rfl, rfl⟩
    · rcases ih fun x hx => he x (by simp [hx]) with ⟨ts, us, h1, h2, h3⟩ | ⟨h1, h2⟩
      · left; exact ⟨t :: ts, t :: us, by simp only [typesOf, hx, h1]; rfl, by simp only [typesOf, hx, h2]; rfl, h3.cons t⟩
      · right; simp only [typesOf, hx, h1, h2]; exact ⟨rfl, rfl⟩
  | swap x y xs =>
    rcases hx : fromValue x with e | t
    · obtain rfl := he x (by simp) e hx
      rcases hy : fromValue y with e | u
      · obtain rfl := he y (by simp) e hy
        right; simp only [typesOf, hx, hy]; exact ⟨rfl, rfl⟩
      · right; simp only [typesOf, hx, hy]; exact ⟨rfl, rfl⟩
    · rcases hy : fromValue y with e | u
      · obtain rfl := he y (by simp) e hy
        right; simp only [typesOf, hx, hy]; exact ⟨rfl, rfl⟩
      · rcases ht : typesOf xs with e | ts
        · have : e = .py .typeError := by
            clear hx hy
            induction xs generalizing e with
            | nil => cases ht
            | cons z zs ih =>
              rcases hz : fromValue z with e' | w
              · simp only [typesOf, hz] at ht; cases ht; exact he z (by simp) _ hz
              · simp only [typesOf, hz, except_ok_bind] at ht
                rcases hzs : typesOf zs with e' | ws
                · rw [hzs] at ht
                  cases ht
                  exact ih (fun a ha => he a (by simp at ha ⊢; tauto)) _ hzs
                · rw [hzs] at ht; cases ht
          subst this
          right; simp only [typesOf, hx, hy, ht]; exact ⟨rfl, rfl⟩
        · left
          exact ⟨u :: t :: ts, t :: u :: ts, by simp only [typesOf, hx, hy, ht]; rfl,
            by simp only [typesOf, hx, hy, ht]; rfl, .swap ..⟩
  | trans h1 h2 ih1 ih2 =>
    rcases ih1 he with ⟨ts, us, a1, a2, a3⟩ | ⟨a1, a2⟩
    · rcases ih2 (fun x hx => he x (h1.mem_iff.2 hx)) with ⟨us', vs, b1, b2, b3⟩ | ⟨b1, b2⟩
      · rw [a2] at b1; cases b1
        exact .inl ⟨ts, vs, a1, b2, a3.trans b3⟩
      · rw [a2] at b1; cases b1
    · rcases ih2 (fun x hx => he x (h1.mem_iff.2 hx)) with ⟨us', vs, b1, b2, b3⟩ | ⟨b1, b2⟩
      · rw [a2] at b1; cases b1
      · exact .inr ⟨a1, b2⟩

mutual
theorem shuffled_fromValue : ∀ {a b : Value}, Shuffled a b → a.WF off → fromValue b = fromValue a
  | _, _, .same v h, _ => rfl
  | _, _, .seq k h, hw => by simp only [fromValue, shuffled_typesOf h hw.1]
  | _, _, .set h, hw => by
    simp only [fromValue]
    rcases typesOf_perm h fun x hx e he => hashable_error x (hw.2.1 x hx) (allWF_iff.1 hw.1 x hx) he with
      ⟨ts, us, h1, h2, h3⟩ | ⟨h1, h2⟩
    · rw [h1, h2]; simp only [except_ok_bind, memberType_perm (typesOf_anon _ h1) h3]
    · rw [h1, h2]
  | _, _, .map k h, hw => by
    simp only [fromValue, typesOfKeys_eq, h.keys, shuffled_typesOfVals h (fun p hp => (pairsWF_iff.1 hw.1 p hp).2)]
theorem shuffled_typesOf : ∀ {a b : List Value}, ShuffledAll a b → Value.AllWF off a → typesOf b = typesOf a
  | _, _, .nil, _ => rfl
  | _, _, .cons h hs, hw => by simp only [typesOf, shuffled_fromValue h hw.1, shuffled_typesOf hs hw.2]
theorem shuffled_typesOfVals : ∀ {a b : List (Value × Value)}, ShuffledItems a b → (∀ p ∈ a, p.2.WF off) →
    typesOfVals b = typesOfVals a
  | _, _, .nil, _ => rfl
  | _, _, .cons k h hs, hw => by
    simp only [typesOfVals, shuffled_fromValue h (hw (_, _) (List.mem_cons_self)),
      shuffled_typesOfVals hs fun p hp => hw p (by simp [hp])]
end
end

/-! ### Results -/

/-- both computations give related results, or raise the same exception -/
inductive InStep {α β : Type} (Q : α → β → Prop) : Except Err α → Except Err β → Prop
  | ok {a : α} {b : β} (h : Q a b) : InStep Q (.ok a) (.ok b)
  | error (e : Err) : InStep Q (.error e) (.error e)

theorem InStep.same {α : Type} (x : Except Err α) : InStep (fun a b => b = a) x x := by
  cases x <;> constructor
  rfl

/-- the values differ in the order of members of sets, and are as Python makes them -/
structure Agrees (off : TzDb) (a b : Value) : Prop where
  shuffled : Shuffled a b
  left : a.WF off
  right : b.WF off

theorem Agrees.refl {off : TzDb} {v : Value} (h : v.WF off) : Agrees off v v := ⟨.refl v, h, h⟩

theorem InStep.wf {off : TzDb} {x y : Except Err Value} (h : InStep Shuffled x y) (hx : ∀ v, x = .ok v → v.WF off)
    (hy : ∀ v, y = .ok v → v.WF off) : InStep (Agrees off) x y := by
  cases h with
  | ok h => exact .ok ⟨h, hx _ _root_.rfl, hy _ _root_.rfl⟩
  | error e => exact .error e

theorem Shuffled.sides {a b : Value} (h : Shuffled a b) (ha : a.isFlat = true) : b = a := by
  cases h with
  | same => rfl
  | seq => cases ha
  | set => cases ha
  | map => cases ha

/-! ### Conversions -/

theorem mapInsert_shuffled {off : TzDb} (k : Value) {v w : Value} (h : Shuffled v w) :
    ∀ {xs ys : List (Value × Value)}, ShuffledItems xs ys → ShuffledItems (mapInsert off xs k v) (mapInsert off ys k w)
  | _, _, .nil => .cons k h .nil
  | _, _, .cons l g gs => by
    simp only [mapInsert]
    split
    · exact .cons l h gs
    · exact .cons l g (mapInsert_shuffled k h gs)

theorem mapFold_shuffled {off : TzDb} : ∀ {xs ys acc acc' : List (Value × Value)}, ShuffledItems xs ys → ShuffledItems acc acc' →
    ShuffledItems (xs.foldl (fun acc p => mapInsert off acc p.1 p.2) acc) (ys.foldl (fun acc p => mapInsert off acc p.1 p.2) acc')
  | _, _, _, _, .nil, ha => ha
  | _, _, _, _, .cons k h hs, ha => by
    simp only [List.foldl_cons]; exact mapFold_shuffled hs (mapInsert_shuffled k h ha)

mutual
theorem coerce_shuffled {off : TzDb} : ∀ {a b : Value}, Shuffled a b → Shuffled (coerce off a) (coerce off b)
  | _, _, .same v h => .refl _
  | _, _, .seq k h => .seq .tuple (coerceList_shuffled h)
  | _, _, .set h => .set h
  | _, _, .map k h => .map .ordered (mapFold_shuffled (coercePairs_shuffled h) .nil)
theorem coerceList_shuffled {off : TzDb} : ∀ {a b : List Value}, ShuffledAll a b →
    ShuffledAll (coerceList off a) (coerceList off b)
  | _, _, .nil => .nil
  | _, _, .cons h hs => .cons (coerce_shuffled h) (coerceList_shuffled hs)
theorem coercePairs_shuffled {off : TzDb} : ∀ {a b : List (Value × Value)}, ShuffledItems a b →
    ShuffledItems (coercePairs off a) (coercePairs off b)
  | _, _, .nil => .nil
  | _, _, .cons k h hs => .cons _ (coerce_shuffled h) (coercePairs_shuffled hs)
end

theorem localise_shuffled {env : Env} {a b : Value} (h : Shuffled a b) : Shuffled (localise env a) (localise env b) := by
  cases h with
  | same => exact .refl _
  | seq k h => exact .seq k h
  | set h => exact .set h
  | map k h => exact .map k h

theorem newValue_agrees {env : Env} {a b : Value} (h : Agrees env.utcoffset a b) :
    Agrees env.utcoffset (newValue env a) (newValue env b) :=
  ⟨localise_shuffled (coerce_shuffled h.shuffled), newValue_wf h.left, newValue_wf h.right⟩

theorem shuffled_truthy {a b : Value} (h : Shuffled a b) : b.truthy = a.truthy := by
  cases h with
  | same => rfl
  | seq k h => cases h <;> rfl
  | @set xs ys h => 
    have := h.length_eq
    cases xs <;> cases ys <;> simp_all [Value.truthy]
  | map k h => cases h <;> rfl

theorem shuffled_len {a b : Value} (h : Shuffled a b) : b.len = a.len := by
  cases h with
  | same => rfl
  | seq k h => exact h.length
  | set h => exact h.length_eq.symm
  | map k h => exact h.length

theorem shuffled_none {a b : Value} (h : Shuffled a b) : b = .none ↔ a = .none := by
  cases h <;> simp

theorem checkSymbol_shuffled {off : TzDb} (name : String) (rt : DataType) {a b : Value} (h : Shuffled a b) (hw : a.WF off) :
    InStep Shuffled (checkSymbol name rt a) (checkSymbol name rt b) := by
  have ht := shuffled_fromValue h hw
  have h0 := h
  cases h with
  | same => rcases checkSymbol name rt a with e | w <;> constructor; exact .refl _
  | @seq k xs ys h =>
    have hn : ys.any (· == Value.none) = xs.any (· == Value.none) := by
      refine ShuffledAll.any (fun {a b} h => ?_) h
      have := shuffled_none h
      by_cases ha : a = .none <;> simp [ha, this]
    unfold checkSymbol
    split
    · exact .ok h0
    · rw [ht]
      rcases fromValue (.seq k xs) with e | vt
      · exact .error e
      · simp only [except_ok_bind, hn]
        repeat' split
        all_goals first | exact .ok h0 | exact .error _
  | @set xs ys h =>
    have hn : ys.any (· == Value.none) = xs.any (· == Value.none) := h.symm.any_eq
    unfold checkSymbol
    split
    · exact .ok h0
    · rw [ht]
      rcases fromValue (.set xs) with e | vt
      · exact .error e
      · simp only [except_ok_bind, hn]
        repeat' split
        all_goals first | exact .ok h0 | exact .error _
  | @map k xs ys h =>
    have hn : ys.any (fun p => p.1 == Value.none) = xs.any (fun p => p.1 == Value.none) :=
      ShuffledItems.any (f := fun k _ => k == Value.none) (g := fun k _ => k == Value.none) (fun _ => rfl) h
    unfold checkSymbol
    split
    · exact .ok h0
    · rw [ht]
      rcases fromValue (.map k xs) with e | vt
      · exact .error e
      · simp only [except_ok_bind, hn]
        repeat' split
        all_goals first | exact .ok h0 | exact .error _

/-! ### Attributes -/

/-- the attributes that turn sets into arrays, or give functions bound to the object -/
def plainAttribute (name : String) : Prop := name ≠ "to_ary" ∧ name ≠ "starts_with" ∧ name ≠ "ends_with"

theorem setFold_distinct {off : TzDb} : ∀ (xs acc : List Value), (acc ++ xs).Pairwise (fun a b => pyEq off a b = false) →
    xs.foldl (setAdd off) acc = acc ++ xs
  | [], acc, _ => by simp
  | x :: xs, acc, h => by
    have hx : acc.any (fun y => pyEq off y x) = false := by
      rw [List.any_eq_false]
      intro y hy
      have := (List.pairwise_append.1 h).2.2 y hy x (by simp)
      simp [this]
    simp only [List.foldl_cons, setAdd, hx, Bool.false_eq_true, if_false]
    rw [setFold_distinct xs (acc ++ [x]) (by simpa using h)]
    simp

theorem attrValue_shuffled {env : Env} {a b : Value} {t : DataType} {k : AttrKind} {name : String} {f : DataType → DataType}
    (h : Shuffled a b) (ha : a.WF env.utcoffset) (hb : b.WF env.utcoffset) (ht : fromValue a = .ok t) (hk : attrKind t = some k)
    (hf : attrTypeFn k name = some f) (hn : plainAttribute name) :
    InStep Shuffled (attrValue env k name a) (attrValue env k name b) := by
  cases h with
  | same _ h => rcases attrValue env k name a with e | w <;> constructor; exact .refl _
  | @seq kind xs ys h =>
    simp only [fromValue, except_bind_ok, Except.ok.injEq] at ht
    obtain ⟨ts, -, rfl⟩ := ht
    cases hk
    have hl := (Shuffled.seq kind h)
    unfold attrTypeFn at hf
    simp only at hf
    split at hf
    · exact absurd rfl hn.2.2
    · simp only [attrValue, shuffled_len hl]; exact .ok (.refl _)
    · simp only [attrValue, shuffled_len hl]; exact .ok (.refl _)
    · exact absurd rfl hn.2.1
    · exact absurd rfl hn.1
    · simp only [attrValue, Value.members, except_ok_bind, setOfList, shuffled_allHashable h]
      split
      · rw [shuffled_allEq h ha.1 ‹_›]; exact .ok (.refl _)
      · exact .error _
    · cases hf
  | @set xs ys h =>
    simp only [fromValue, except_bind_ok, Except.ok.injEq] at ht
    obtain ⟨ts, -, rfl⟩ := ht
    cases hk
    have hl := (Shuffled.set h)
    unfold attrTypeFn at hf
    simp only at hf
    split at hf
    · simp only [attrValue, shuffled_len hl]; exact .ok (.refl _)
    · simp only [attrValue, shuffled_len hl]; exact .ok (.refl _)
    · exact absurd rfl hn.1
    · have key : ∀ {zs : List Value}, (Value.set zs).WF env.utcoffset → setOfList env.utcoffset zs = .ok zs := by
        intro zs hz
        unfold setOfList
        rw [if_pos, setFold_distinct zs [] hz.2.2]; rfl
        induction zs with
        | nil => rfl
        | cons z zs ih =>
          simp only [Value.WF, Value.AllWF, List.pairwise_cons] at hz
          simp only [Value.allHashable, Bool.and_eq_true]
          exact ⟨hz.2.1 z (by simp), ih ⟨hz.1.2, fun x hx => hz.2.1 x (by simp [hx]), hz.2.2.2⟩⟩
      simp only [attrValue, Value.members, except_ok_bind, key ha, key hb]
      exact .ok hl
    · cases hf
  | @map kind xs ys h =>
    simp only [fromValue, except_bind_ok, mkMappingType] at ht
    obtain ⟨ts, -, us, -, ht⟩ := ht
    split at ht <;> cases ht
    cases hk
    have hl := (Shuffled.map kind h)
    unfold attrTypeFn at hf
    simp only at hf
    split at hf
    · simp only [attrValue, h.keys]; exact .ok (.refl _)
    · simp only [attrValue]; exact .ok (.seq .tuple h.vals)
    · simp only [attrValue, shuffled_len hl]; exact .ok (.refl _)
    · simp only [attrValue, shuffled_len hl]; exact .ok (.refl _)
    · cases hf

theorem resolveAttr_shuffled {env : Env} {a b : Value} {name : String} (h : Agrees env.utcoffset a b)
    (hn : plainAttribute name) : InStep (Agrees env.utcoffset) (resolveAttr env a name) (resolveAttr env b name) := by
  refine InStep.wf ?_ (fun v hv => resolveAttr_wf h.left hv) (fun v hv => resolveAttr_wf h.right hv)
  unfold resolveAttr
  rw [shuffled_fromValue h.shuffled h.left]
  rcases ht : fromValue a with e | t
  · split <;> first | exact .error _ | (rename_i h; cases h)
  · simp only
    rcases hk : attrKind t with _ | k
    · exact .error _
    · simp only
      rcases hf : attrTypeFn k name with _ | f
      · exact .error _
      · simp only
        have hv := attrValue_shuffled h.shuffled h.left h.right ht hk hf hn
        rcases hx : attrValue env k name a with e | v <;> rcases hy : attrValue env k name b with e' | w <;>
          rw [hx, hy] at hv <;> cases hv
        · exact .error _
        · rename_i hvw
          simp only [except_ok_bind, coerceVerify]
          have hc := coerce_shuffled (off := env.utcoffset) hvw
          have hcw : (coerce env.utcoffset v).WF env.utcoffset := coerce_wf v (attrValue_wf h.left hx)
          rw [shuffled_fromValue hc hcw]
          rcases hft : fromValue (coerce env.utcoffset v) with e | vt
          · exact .error _
          · simp only [except_ok_bind, hft, shuffled_fromValue hc hcw]
            split
            · exact .ok hc
            · exact .error _

/-! ### Operators -/

section
variable {a a' b b' : Value}

theorem shuffled_assertNumeric (h : Shuffled a a') : assertNumeric a' = assertNumeric a := by cases h <;> rfl
theorem shuffled_isReal (h : Shuffled a a') : isReal a' = isReal a := by cases h <;> rfl
theorem shuffled_isInteger (h : Shuffled a a') : isInteger a' = isInteger a := by cases h <;> rfl
theorem shuffled_assertNatural (h : Shuffled a a') : assertNatural a' = assertNatural a := by cases h <;> rfl
theorem shuffled_assertInteger (h : Shuffled a a') : assertInteger a' = assertInteger a := by cases h <;> rfl
theorem shuffled_toInt (h : Shuffled a a') : toInt a' = toInt a := by cases h <;> rfl
theorem shuffled_opNeg {dc : DecCtx} (h : Shuffled a a') : opNeg dc a' = opNeg dc a := by cases h <;> rfl
theorem shuffled_opBitNat {env : Env} {op : BitOp} (h : Shuffled a a') (h' : Shuffled b b') :
    opBitNat env op a' b' = opBitNat env op a b := by
  simp only [opBitNat, shuffled_assertNatural h', shuffled_toInt h, shuffled_toInt h']
theorem shuffled_pyType (h : Shuffled a a') : a'.pyType = a.pyType := by
  cases h with
  | same => rfl
  | seq k h => cases k <;> rfl
  | set h => rfl
  | map k h => cases k <;> rfl

theorem shuffled_numOp {env : Env} {dc : DecCtx} {op : ArithOp} (h : Shuffled a a') (h' : Shuffled b b') :
    numOp env dc op a' b' = numOp env dc op a b := by
  have h1 : a'.isDec = a.isDec := by cases h <;> rfl
  have h2 : b'.isDec = b.isDec := by cases h' <;> rfl
  have h3 : a'.asIntDec = a.asIntDec := by cases h <;> rfl
  have h4 : b'.asIntDec = b.asIntDec := by cases h' <;> rfl
  have h5 : a'.asInt = a.asInt := by cases h <;> rfl
  have h6 : b'.asInt = b.asInt := by cases h' <;> rfl
  have h7 : a'.asNumber = a.asNumber := by cases h <;> rfl
  have h8 : b'.asNumber = b.asNumber := by cases h' <;> rfl
  by_cases hf : a.isFlat = true
  · rw [h.sides hf]
    by_cases hf' : b.isFlat = true
    · rw [h'.sides hf']
    · have : b.asNumber = none ∧ b.asInt = none ∧ b.asIntDec = none := by
        cases b <;> simp_all [Value.isFlat, Value.asNumber, Value.asInt, Value.asIntDec]
      unfold numOp
      rw [h2, h4, h6, h8, this.1, this.2.1, this.2.2]
      split
      · rfl
      · cases a.asInt <;> cases a.asNumber <;> rfl
  · have : a.asNumber = none ∧ a.asInt = none ∧ a.asIntDec = none := by
      cases a <;> simp_all [Value.isFlat, Value.asNumber, Value.asInt, Value.asIntDec]
    unfold numOp
    rw [h1, h2, h3, h4, h5, h6, h7, h8, this.1, this.2.1, this.2.2]

theorem shuffled_opArith {env : Env} {dc : DecCtx} {op : ArithOp} (h : Shuffled a a') (h' : Shuffled b b') :
    opArith env dc op a' b' = opArith env dc op a b := by
  unfold opArith; rw [shuffled_numOp h h']

theorem shuffled_opAdd {env : Env} {dc : DecCtx} (h : Shuffled a a') (h' : Shuffled b b') :
    opAdd env dc a' b' = opAdd env dc a b := by
  by_cases hf : a.isFlat = true
  · rw [h.sides hf]
    by_cases hf' : b.isFlat = true
    · rw [h'.sides hf']
    · have hn := shuffled_numOp (env := env) (dc := dc) (op := .add) (.refl a) h'
      cases h' with
      | same => rfl
      | seq | set | map => cases a <;> simp [Value.isFlat] at hf <;>
          simp_all [opAdd, addCheck, pyAdd, Value.isBytes, Value.isStr, assertNumeric, isNumeric]
  · have hn := shuffled_numOp (env := env) (dc := dc) (op := .add) h h'
    cases h with
    | same => exact absurd ‹_› hf
    | seq | set | map =>
      cases h' with
      | same => cases b <;> simp_all [opAdd, addCheck, pyAdd, Value.isBytes, Value.isStr, assertNumeric, isNumeric]
      | seq | set | map => simp_all [opAdd, addCheck, pyAdd, Value.isBytes, Value.isStr, assertNumeric, isNumeric]

theorem shuffled_opSub {env : Env} {dc : DecCtx} (h : Shuffled a a') (h' : Shuffled b b') :
    opSub env dc a' b' = opSub env dc a b := by
  by_cases hf : a.isFlat = true
  · rw [h.sides hf]
    by_cases hf' : b.isFlat = true
    · rw [h'.sides hf']
    · have hn := shuffled_numOp (env := env) (dc := dc) (op := .sub) (.refl a) h'
      cases h' with
      | same => rfl
      | seq | set | map => cases a <;> simp [Value.isFlat] at hf <;>
          simp_all [opSub, subCheck, pySub, assertNumeric, isNumeric]
  · have hn := shuffled_numOp (env := env) (dc := dc) (op := .sub) h h'
    cases h with
    | same => exact absurd ‹_› hf
    | seq | set | map =>
      cases h' with
      | same => cases b <;> simp_all [opSub, subCheck, pySub, assertNumeric, isNumeric]
      | seq | set | map => simp_all [opSub, subCheck, pySub, assertNumeric, isNumeric]

theorem shuffled_opEq {off : TzDb} (h : Shuffled a a') (h' : Shuffled b b') : opEq off a' b' = opEq off a b := by
  simp only [opEq, shuffled_pyType h, shuffled_pyType h', shuffled_pyEq h h']
theorem shuffled_opNe {off : TzDb} (h : Shuffled a a') (h' : Shuffled b b') : opNe off a' b' = opNe off a b := by
  simp only [opNe, pyNe, shuffled_pyType h, shuffled_pyType h', shuffled_pyEq h h']

theorem shuffled_pyCmp {off : TzDb} {op : CmpOp} (h : Shuffled a a') (h' : Shuffled b b') :
    pyCmp off op a' b' = pyCmp off op a b := by
  have he := shuffled_pyEq (off := off) h h'
  cases h with
  | same v hv =>
    cases h' with
    | same => rfl
    | seq | set | map => cases a <;> simp [Value.isFlat] at hv <;> simp only [pyCmp, he]
  | seq k h => cases h' with
    | same w hw => cases b <;> simp [Value.isFlat] at hw <;> simp only [pyCmp, he]
    | seq | set | map => simp only [pyCmp, he]
  | set h => cases h' with
    | same w hw => cases b <;> simp [Value.isFlat] at hw <;> simp only [pyCmp, he]
    | seq | map => simp only [pyCmp, he]
    | set h' => simp only [pyCmp, he, pySubset_perm h h', pySubset_perm h' h, h.length_eq, h'.length_eq]
  | map k h => cases h' with
    | same w hw => cases b <;> simp [Value.isFlat] at hw <;> simp only [pyCmp, he]
    | seq | set | map => simp only [pyCmp, he]

theorem opCmpValues_else {off : TzDb} {op : CmpOp} (h : ¬ (a = .none ∧ b = .none))
    (h' : ¬ ((∃ xs, a = .tuple xs) ∧ ∃ ys, b = .tuple ys)) :
    opCmpValues off a op b = if a.pyType = b.pyType then pyCmp off op a b else .error .mismatch := by
  rw [opCmpValues.eq_def]
  split
  · exact absurd ⟨rfl, rfl⟩ h
  · exact absurd ⟨⟨_, rfl⟩, _, rfl⟩ h'
  · rfl
end

mutual
theorem shuffled_opCmp {off : TzDb} {op : CmpOp} : ∀ {a a' b b' : Value}, Shuffled a a' → Shuffled b b' →
    opCmpValues off a' op b' = opCmpValues off a op b
  | _, _, _, _, .seq .tuple h, .seq .tuple h' => by
    simp only [opCmpValues, h.length, h'.length, shuffled_opCmpArrays h h']
  | _, _, _, _, .same v hv, .same w hw => rfl
  | _, _, _, _, .same v hv, .seq l h' => by
    rw [opCmpValues_else (by simp) (by rintro ⟨⟨xs, rfl⟩, -⟩; simp [Value.isFlat] at hv), opCmpValues_else (by simp) (by rintro ⟨⟨xs, rfl⟩, -⟩; simp [Value.isFlat] at hv),
      shuffled_pyCmp (.same v hv) (.seq l h'), shuffled_pyType (.seq l h')]
  | _, _, _, _, .same v hv, .set h' => by
    rw [opCmpValues_else (by simp) (by simp), opCmpValues_else (by simp) (by simp),
      shuffled_pyCmp (.same v hv) (.set h'), shuffled_pyType (.set h')]
  | _, _, _, _, .same v hv, .map l h' => by
    rw [opCmpValues_else (by simp) (by simp), opCmpValues_else (by simp) (by simp),
      shuffled_pyCmp (.same v hv) (.map l h'), shuffled_pyType (.map l h')]
  | _, _, _, _, .seq k h, .same w hw => by
    rw [opCmpValues_else (by simp) (by rintro ⟨-, xs, rfl⟩; simp [Value.isFlat] at hw), opCmpValues_else (by simp) (by rintro ⟨-, xs, rfl⟩; simp [Value.isFlat] at hw),
      shuffled_pyCmp (.seq k h) (.same w hw), shuffled_pyType (.seq k h)]
  | _, _, _, _, .seq .list h, .seq l h' => by
    rw [opCmpValues_else (by simp) (by simp [Value.tuple]), opCmpValues_else (by simp) (by simp [Value.tuple]),
      shuffled_pyCmp (.seq .list h) (.seq l h'), shuffled_pyType (.seq .list h), shuffled_pyType (.seq l h')]
  | _, _, _, _, .seq .range h, .seq l h' => by
    rw [opCmpValues_else (by simp) (by simp [Value.tuple]), opCmpValues_else (by simp) (by simp [Value.tuple]),
      shuffled_pyCmp (.seq .range h) (.seq l h'), shuffled_pyType (.seq .range h), shuffled_pyType (.seq l h')]
  | _, _, _, _, .seq .tuple h, .seq .list h' => by
    rw [opCmpValues_else (by simp) (by simp [Value.tuple]), opCmpValues_else (by simp) (by simp [Value.tuple]),
      shuffled_pyCmp (.seq .tuple h) (.seq .list h'), shuffled_pyType (.seq .tuple h), shuffled_pyType (.seq .list h')]
  | _, _, _, _, .seq .tuple h, .seq .range h' => by
    rw [opCmpValues_else (by simp) (by simp [Value.tuple]), opCmpValues_else (by simp) (by simp [Value.tuple]),
      shuffled_pyCmp (.seq .tuple h) (.seq .range h'), shuffled_pyType (.seq .tuple h), shuffled_pyType (.seq .range h')]
  | _, _, _, _, .seq k h, .set h' => by
    rw [opCmpValues_else (by simp) (by simp), opCmpValues_else (by simp) (by simp),
      shuffled_pyCmp (.seq k h) (.set h'), shuffled_pyType (.seq k h), shuffled_pyType (.set h')]
  | _, _, _, _, .seq k h, .map l h' => by
    rw [opCmpValues_else (by simp) (by simp), opCmpValues_else (by simp) (by simp),
      shuffled_pyCmp (.seq k h) (.map l h'), shuffled_pyType (.seq k h), shuffled_pyType (.map l h')]
  | _, _, _, _, .set h, hb => by
    rw [opCmpValues_else (by simp) (by simp), opCmpValues_else (by simp) (by simp),
      shuffled_pyCmp (.set h) hb, shuffled_pyType (.set h), shuffled_pyType hb]
  | _, _, _, _, .map k h, hb => by
    rw [opCmpValues_else (by simp) (by simp), opCmpValues_else (by simp) (by simp),
      shuffled_pyCmp (.map k h) hb, shuffled_pyType (.map k h), shuffled_pyType hb]
theorem shuffled_opCmpArrays {off : TzDb} {op : CmpOp} {n m : Nat} : ∀ {a a' b b' : List Value}, ShuffledAll a a' → ShuffledAll b b' →
    opCmpArrays off a' op b' n m = opCmpArrays off a op b n m
  | _, _, _, _, .nil, .nil => rfl
  | _, _, _, _, .nil, .cons h hs => by simp only [opCmpArrays]
  | _, _, _, _, .cons h hs, .nil => by simp only [opCmpArrays]
  | _, _, _, _, .cons h hs, .cons h' hs' => by
    simp only [opCmpArrays, shuffled_opCmp h h', shuffled_opCmpArrays hs hs']
end

section
variable {a a' b b' : Value}

theorem shuffled_pyIn {off : TzDb} (h : Shuffled a a') (h' : Shuffled b b') : pyIn off a' b' = pyIn off a b := by
  have key : ∀ xs : List Value, xs.any (fun x => pyEq off x a') = xs.any (fun x => pyEq off x a) := by
    intro xs; congr 1; funext x; exact shuffled_pyEq (.refl x) h
  cases h' with
  | same w hw => cases b <;> simp [Value.isFlat] at hw <;> simp only [pyIn] <;> cases h <;> rfl
  | seq k h' =>
    simp only [pyIn]
    rw [ShuffledAll.any (f := fun x => pyEq off x a) (g := fun x => pyEq off x a') (fun hx => shuffled_pyEq hx h) h']
  | @set xs ys h' =>
    have hc : ∀ {m : Value}, (∀ zs, m ≠ .set zs) → pyIn off m (.set xs) =
        if m.hashable then .ok (xs.any (fun x => pyEq off x m)) else .error .typeError := by
      intro m hm; cases m <;> simp_all [pyIn]
    have hc' : ∀ {m : Value}, (∀ zs, m ≠ .set zs) → pyIn off m (.set ys) =
        if m.hashable then .ok (ys.any (fun x => pyEq off x m)) else .error .typeError := by
      intro m hm; cases m <;> simp_all [pyIn]
    by_cases hs : ∃ zs, a = .set zs
    · obtain ⟨zs, rfl⟩ := hs
      cases h with
      | same _ hv => cases hv
      | set => rfl
    · have h1 : ∀ zs, a ≠ .set zs := fun zs e => hs ⟨zs, e⟩
      have h2 : ∀ zs, a' ≠ .set zs := by
        intro zs e
        subst e
        cases h with
        | same _ hv => cases hv
        | set => exact h1 _ rfl
      rw [hc h1, hc' h2, shuffled_hashable h, h'.symm.any_eq, key]
  | map k h' =>
    simp only [pyIn, shuffled_hashable h]
    rw [ShuffledItems.any (f := fun k _ => pyEq off k a) (g := fun k _ => pyEq off k a') (fun _ => shuffled_pyEq (.refl _) h) h']

theorem shuffled_opContains {off : TzDb} {ct : DataType} (h : Shuffled a a') (hw : a.WF off) (h' : Shuffled b b') :
    opContains off ct b' a' = opContains off ct b a := by
  simp only [opContains, shuffled_fromValue h hw, shuffled_pyIn h h']
end

end RE
