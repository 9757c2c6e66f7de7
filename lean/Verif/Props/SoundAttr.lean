import Verif.Props.Sound

/-!
# Type soundness: members, items, attributes, calls (C08)
-/

set_option linter.unusedSimpArgs false
set_option linter.unusedVariables false
set_option linter.unusedTactic false

namespace RE

variable {st : Prop}

/-! ## Members -/

theorem sound_member {env : Env} {ts : List DataType} {t : DataType} {x : Value} (ht : t ∈ ts)
    (h : x.Sound env st t) : x.Sound env st (memberType ts) := by
  refine ⟨h.1, ?_⟩
  rcases h.2 with h0 | h0
  · exact .inl h0
  by_cases hu : memberType ts = .undefined
  · rw [hu]; exact .inr trivial
  · rcases memberType_spec ts hu t ht with rfl | he
    · exact .inl h0
    · exact .inr ((hasType_eq he x).1 h0)

theorem clean_members {v : Value} {xs : List Value} (hc : v.Clean) (h : v.members = .ok xs) :
    ∀ x ∈ xs, x.Clean := by
  intro x hx
  cases v <;> simp only [Value.members, Except.ok.injEq, reduceCtorEq] at h <;> subst h
  · simp only [List.mem_map] at hx
    obtain ⟨_, -, rfl⟩ := hx
    trivial
  · simp only [List.mem_map] at hx
    obtain ⟨_, -, rfl⟩ := hx
    trivial
  · simp only [Value.Clean] at hc; exact allClean_iff.1 hc x hx
  · simp only [Value.Clean] at hc; exact allClean_iff.1 hc x hx
  · simp only [Value.Clean] at hc
    simp only [List.mem_map] at hx
    obtain ⟨p, hp, rfl⟩ := hx
    exact (pairsClean_iff.1 hc p hp).1.2

theorem nullable_or {n : Bool} {x : Value} {p : Prop} (h : (n = true ∧ x = .none) ∨ p) :
    x = .none ∨ p := h.imp And.right id

/-- members of a value of a known type -/
theorem members_sound {env : Env} {t u : DataType} {v : Value} {xs : List Value}
    (hv : v.Sound env st t) (hi : iterVarType t = .ok u) (h : v.members = .ok xs) :
    ∀ x ∈ xs, x.Sound env st u := by
  intro x hx
  refine ⟨fun hs => clean_members (hv.1 hs) h x hx, ?_⟩
  rcases hv.2 with rfl | hty
  · simp [Value.members] at h
  cases t <;> simp only [iterVarType, DataType.iterableType, Except.ok.injEq, reduceCtorEq] at hi <;>
    subst hi
  case undefined => exact .inr trivial
  case array m n =>
    obtain ⟨k, ys, rfl, hm⟩ := hty
    simp only [Value.members, Except.ok.injEq] at h; subst h
    exact nullable_or (hm x hx)
  case set m n =>
    obtain ⟨ys, rfl, hm⟩ := hty
    simp only [Value.members, Except.ok.injEq] at h; subst h
    exact nullable_or (hm x hx)
  case mapping k m n =>
    obtain ⟨kd, kvs, rfl, hm⟩ := hty
    simp only [Value.members, Except.ok.injEq] at h; subst h
    obtain ⟨p, hp, rfl⟩ := List.mem_map.1 hx
    exact (hm p hp).1

theorem mapLookup_mem {α : Type} {off : TzDb} {kvs : List (Value × α)} {k : Value} {v : α}
    (h : mapLookup off kvs k = some v) : ∃ p ∈ kvs, p.2 = v := by
  simp only [mapLookup, Option.map_eq_some_iff] at h
  obtain ⟨p, hp, rfl⟩ := h
  exact ⟨p, List.mem_of_find?_eq_some hp, rfl⟩

/-- an item of a container -/
inductive ItemOf : Value → Value → Prop
  | str {s : String} (c : Char) : ItemOf (.str s) (.str (String.ofList [c]))
  | bytes {b : List UInt8} (x : UInt8) : ItemOf (.bytes b) (.int x.toNat)
  | seq {k : SeqKind} {xs : List Value} {x : Value} (h : x ∈ xs) : ItemOf (.seq k xs) x
  | map {k : MapKind} {kvs : List (Value × Value)} {p : Value × Value} (h : p ∈ kvs) :
      ItemOf (.map k kvs) p.2

theorem opGetItem_itemOf {off : TzDb} {c i v : Value} (h : opGetItem off c i = .ok (some v)) :
    ItemOf c v := by
  simp only [opGetItem, except_bind_ok] at h
  obtain ⟨_, -, h⟩ := h
  cases c with
  | str s =>
    simp only [pyGetItem, Except.ok.injEq, Option.bind_eq_some_iff, Option.map_eq_some_iff] at h
    obtain ⟨n, -, ch, -, rfl⟩ := h
    exact .str ch
  | bytes s =>
    simp only [pyGetItem, Except.ok.injEq, Option.bind_eq_some_iff, Option.map_eq_some_iff] at h
    obtain ⟨n, -, ch, -, rfl⟩ := h
    exact .bytes ch
  | seq k xs =>
    cases k
    all_goals
      simp only [pyGetItem] at h
      first
        | (simp only [Except.ok.injEq, Option.bind_eq_some_iff] at h
           obtain ⟨n, -, h⟩ := h
           exact .seq (List.mem_of_getElem? h))
        | (split at h
           · simp only [Except.ok.injEq, Option.bind_eq_some_iff] at h
             obtain ⟨n, -, h⟩ := h
             exact .seq (List.mem_of_getElem? h)
           · cases h)
  | map k kvs =>
    simp only [pyGetItem] at h
    split at h
    · simp only [Except.ok.injEq] at h
      obtain ⟨p, hp, rfl⟩ := mapLookup_mem h
      exact .map hp
    · cases h
  | _ => simp [pyGetItem] at h

theorem itemOf_sound {env : Env} {t : DataType} {c v : Value} (hc : c.Sound env st t)
    (h : ItemOf c v) : v.Sound env st (itemNodeType t) := by
  constructor
  · intro hs
    have := hc.1 hs
    cases h with
    | str c => trivial
    | bytes c => trivial
    | seq h => simp only [Value.Clean] at this; exact allClean_iff.1 this _ h
    | map h => simp only [Value.Clean] at this; exact (pairsClean_iff.1 this _ h).2
  · rcases hc.2 with rfl | hty
    · cases h
    cases t <;> try exact .inr trivial
    case bytes =>
      obtain ⟨b, rfl⟩ := hty
      cases h
      exact .inr (.inr (.inl ⟨_, rfl⟩))
    case string =>
      obtain ⟨b, rfl⟩ := hty
      cases h
      exact .inr ⟨_, rfl⟩
    case array m n =>
      obtain ⟨k, ys, rfl, hm⟩ := hty
      cases h with
      | seq h => exact nullable_or (hm _ h)
    case mapping k m n =>
      obtain ⟨kd, kvs, rfl, hm⟩ := hty
      cases h with
      | map h => exact nullable_or (hm _ h).2

theorem pySlice_mem {α : Type} {xs : List α} {a b : Option Int} {x : α} (h : x ∈ pySlice xs a b) :
    x ∈ xs := by
  unfold pySlice at h
  simp only at h
  exact List.mem_of_mem_take (List.mem_of_mem_drop h)

theorem slice_sound {env : Env} {t : DataType} {c v : Value} {a b : Option Int}
    (hc : c.Sound env st t) (h : pyGetSlice c a b = .ok v) : v.Sound env st (sliceNodeType t) := by
  constructor
  · intro hs
    have := hc.1 hs
    cases c <;> simp only [pyGetSlice, Except.ok.injEq, reduceCtorEq] at h <;> subst h <;>
      simp only [Value.Clean] at this ⊢
    rw [allClean_iff] at this ⊢
    exact fun x hx => this x (pySlice_mem hx)
  · rcases hc.2 with rfl | hty
    · simp [pyGetSlice] at h
    cases t <;> try exact .inr trivial
    case bytes =>
      obtain ⟨b, rfl⟩ := hty
      simp only [pyGetSlice, Except.ok.injEq] at h
      exact .inr ⟨_, h.symm⟩
    case string =>
      obtain ⟨b, rfl⟩ := hty
      simp only [pyGetSlice, Except.ok.injEq] at h
      exact .inr ⟨_, h.symm⟩
    case array m n =>
      obtain ⟨k, ys, rfl, hm⟩ := hty
      simp only [pyGetSlice, Except.ok.injEq] at h
      exact .inr ⟨k, _, h.symm, fun x hx => hm x (pySlice_mem hx)⟩

/-! ## Attributes -/

theorem setFold_mem {off : TzDb} {xs : List Value} : ∀ {acc : List Value} {x : Value},
    x ∈ xs.foldl (setAdd off) acc → x ∈ acc ∨ x ∈ xs := by
  induction xs with
  | nil => intro acc x h; exact .inl h
  | cons a t ih =>
    intro acc x h
    rcases ih h with h | h
    · unfold setAdd at h
      split at h
      · exact .inl h
      · rcases List.mem_append.1 h with h | h
        · exact .inl h
        · exact .inr (by rw [List.mem_singleton.1 h]; exact List.mem_cons_self)
    · exact .inr (List.mem_cons_of_mem _ h)

theorem setOfList_mem {off : TzDb} {xs ys : List Value} (h : setOfList off xs = .ok ys) :
    ∀ y ∈ ys, y ∈ xs := by
  unfold setOfList at h
  split at h
  · cases h
    intro y hy
    rcases setFold_mem hy with h | h
    · simp at h
    · exact h
  · cases h

theorem stringToFlt_num {env : Env} {s : String} {v : Value} (h : stringToFlt env s = .ok v) :
    v.IsNum := by
  unfold stringToFlt at h
  simp only at h
  repeat' split at h
  all_goals first
    | (cases h; done)
    | (cases h; exact .inl ⟨_, rfl⟩)
    | (cases h; exact .inr (.inl ⟨_, rfl⟩))
    | (cases h; exact .inr (.inr ⟨_, rfl⟩))

theorem keysOk_num {v : Value} (h : v.IsNum) : v.KeysOk := clean_keysOk v h.clean

/-- what an attribute function returns -/
theorem attrValue_sound {env : Env} {k : AttrKind} {name : String} {f : DataType → DataType}
    {t : DataType} {o w : Value} (hk : attrKind t = some k) (htu : t ≠ .undefined)
    (hty : o.HasType env.Returns t) (hf : attrTypeFn k name = some f)
    (h : attrValue env k name o = .ok w) :
    (o.Clean → w.KeysOk) ∧ (w = .none ∨ w.HasType env.Returns (f t)) := by
  have hnum : ∀ {w : Value}, w.IsNum → (o.Clean → w.KeysOk) ∧
      (w = .none ∨ w.HasType env.Returns .float) := fun hw => ⟨fun _ => keysOk_num hw, .inr hw⟩
  have hmeth : ∀ m n a ret, ret.flat = true → (o.Clean → (Value.method m o).KeysOk) ∧
      ((Value.method m o) = .none ∨ (Value.method m o).HasType env.Returns (.function n ret a (some 1))) :=
    fun m n a ret hr => ⟨fun _ => by simp [Value.KeysOk], .inr (flat_function _ hr rfl)⟩
  have hstr : ∀ x, (o.Clean → (Value.str x).KeysOk) ∧
      ((Value.str x) = .none ∨ (Value.str x).HasType env.Returns .string) :=
    fun x => ⟨fun _ => by simp [Value.KeysOk], .inr ⟨_, rfl⟩⟩
  have hbytesA : ∀ b : List UInt8, (o.Clean → (Value.tuple (b.map fun x => .int x.toNat)).KeysOk) ∧
      ((Value.tuple (b.map fun x => .int x.toNat)) = .none ∨
        (Value.tuple (b.map fun x => .int x.toNat)).HasType env.Returns (.array .float true)) := by
    intro b
    refine ⟨fun _ => ?_, .inr ⟨_, _, rfl, fun x hx => ?_⟩⟩
    · simp only [Value.KeysOk]
      rw [allKeysOk_iff]
      intro x hx
      obtain ⟨_, -, rfl⟩ := List.mem_map.1 hx
      trivial
    · obtain ⟨_, -, rfl⟩ := List.mem_map.1 hx
      exact .inr (.inr (.inl ⟨_, rfl⟩))
  have hbytesS : ∀ (b : List UInt8) (ys : List Value),
      (∀ y ∈ ys, y ∈ b.map fun x : UInt8 => Value.int x.toNat) → (o.Clean → (Value.set ys).KeysOk) ∧
      ((Value.set ys) = .none ∨ (Value.set ys).HasType env.Returns (.set .float true)) := by
    intro b ys hys
    refine ⟨fun _ => ?_, .inr ⟨_, rfl, fun x hx => ?_⟩⟩
    · simp only [Value.KeysOk]
      rw [allKeysOk_iff]
      intro x hx
      obtain ⟨_, -, rfl⟩ := List.mem_map.1 (hys x hx)
      trivial
    · obtain ⟨_, -, rfl⟩ := List.mem_map.1 (hys x hx)
      exact .inr (.inr (.inl ⟨_, rfl⟩))
  have hstrA : ∀ s : String, (o.Clean → (Value.tuple (s.toList.map fun c => .str (String.ofList [c]))).KeysOk) ∧
      ((Value.tuple (s.toList.map fun c => .str (String.ofList [c]))) = .none ∨
        (Value.tuple (s.toList.map fun c => .str (String.ofList [c]))).HasType env.Returns
          (.array .string true)) := by
    intro b
    refine ⟨fun _ => ?_, .inr ⟨_, _, rfl, fun x hx => ?_⟩⟩
    · simp only [Value.KeysOk]
      rw [allKeysOk_iff]
      intro x hx
      obtain ⟨_, -, rfl⟩ := List.mem_map.1 hx
      trivial
    · obtain ⟨_, -, rfl⟩ := List.mem_map.1 hx
      exact .inr ⟨_, rfl⟩
  have hstrS : ∀ (s : String) (ys : List Value),
      (∀ y ∈ ys, y ∈ s.toList.map fun c => Value.str (String.ofList [c])) →
      (o.Clean → (Value.set ys).KeysOk) ∧
      ((Value.set ys) = .none ∨ (Value.set ys).HasType env.Returns (.set .string true)) := by
    intro b ys hys
    refine ⟨fun _ => ?_, .inr ⟨_, rfl, fun x hx => ?_⟩⟩
    · simp only [Value.KeysOk]
      rw [allKeysOk_iff]
      intro x hx
      obtain ⟨_, -, rfl⟩ := List.mem_map.1 (hys x hx)
      trivial
    · obtain ⟨_, -, rfl⟩ := List.mem_map.1 (hys x hx)
      exact .inr ⟨_, rfl⟩
  cases t <;> simp only [attrKind, Option.some.injEq, reduceCtorEq] at hk <;> subst hk
  case bytes =>
    obtain ⟨b, rfl⟩ := hty
    simp only [attrTypeFn] at hf
    split at hf <;> simp only [Option.some.injEq, reduceCtorEq] at hf <;> subst hf <;>
      simp only [attrValue, Except.ok.injEq, Value.members, except_bind_ok] at h
    · subst h; exact hmeth _ _ _ _ rfl
    · subst h; exact hmeth _ _ _ _ rfl
    · subst h; exact ⟨fun _ => by simp [Value.KeysOk], .inr ⟨_, rfl⟩⟩
    · subst h; exact hnum (.inr (.inl ⟨_, rfl⟩))
    · subst h; exact hmeth _ _ _ _ rfl
    · obtain ⟨xs, rfl, rfl⟩ := h
      exact hbytesA b
    · obtain ⟨xs, rfl, ys, hy, rfl⟩ := h
      exact hbytesS b ys (setOfList_mem hy)
  case string =>
    obtain ⟨b, rfl⟩ := hty
    simp only [attrTypeFn] at hf
    split at hf <;> simp only [Option.some.injEq, reduceCtorEq] at hf <;> subst hf <;>
      simp only [attrValue, Except.ok.injEq, Value.members, except_bind_ok] at h
    · subst h; exact hstr _
    · subst h; exact hstr _
    · subst h; exact hmeth _ _ _ _ rfl
    · obtain ⟨r, hr, h⟩ := h
      cases shortInt_ok h
      exact hnum (stringToFlt_num hr)
    · obtain ⟨r, hr, _, -, h⟩ := h
      cases shortInt_ok h
      exact hnum (stringToFlt_num hr)
    · subst h; exact hmeth _ _ _ _ rfl
    · subst h; exact ⟨fun _ => by simp [Value.KeysOk], .inr ⟨_, rfl⟩⟩
    · subst h; exact hnum (.inr (.inl ⟨_, rfl⟩))
    · subst h; exact hmeth _ _ _ _ rfl
    · obtain ⟨xs, rfl, rfl⟩ := h
      exact hstrA b
    · subst h; exact hstr _
    · obtain ⟨xs, rfl, ys, hy, rfl⟩ := h
      exact hstrS b ys (setOfList_mem hy)
  case array m n =>
    obtain ⟨kd, xs, rfl, hm⟩ := hty
    simp only [attrTypeFn] at hf
    split at hf <;> simp only [Option.some.injEq, reduceCtorEq] at hf <;> subst hf <;>
      simp only [attrValue, Except.ok.injEq, Value.members, except_bind_ok] at h
    · subst h; exact hmeth _ _ _ _ rfl
    · subst h; exact ⟨fun _ => by simp [Value.KeysOk], .inr ⟨_, rfl⟩⟩
    · subst h; exact hnum (.inr (.inl ⟨_, rfl⟩))
    · subst h; exact hmeth _ _ _ _ rfl
    · obtain ⟨xs, rfl, rfl⟩ := h
      refine ⟨fun hc => clean_keysOk _ (by simpa only [Value.Clean] using hc),
        .inr ⟨_, xs, rfl, fun x hx => ?_⟩⟩
      exact (nullable_or (hm x hx)).imp (fun h => ⟨rfl, h⟩) id
    · obtain ⟨xs, rfl, ys, hy, rfl⟩ := h
      refine ⟨fun hc => clean_keysOk _ ?_, .inr ⟨ys, rfl, fun x hx => ?_⟩⟩
      · simp only [Value.Clean] at hc ⊢
        rw [allClean_iff] at hc ⊢
        exact fun x hx => hc x (setOfList_mem hy x hx)
      · exact (nullable_or (hm x (setOfList_mem hy x hx))).imp (fun h => ⟨rfl, h⟩) id
  case set m n =>
    obtain ⟨xs, rfl, hm⟩ := hty
    simp only [attrTypeFn] at hf
    split at hf <;> simp only [Option.some.injEq, reduceCtorEq] at hf <;> subst hf <;>
      simp only [attrValue, Except.ok.injEq, Value.members, except_bind_ok] at h
    · subst h; exact ⟨fun _ => by simp [Value.KeysOk], .inr ⟨_, rfl⟩⟩
    · subst h; exact hnum (.inr (.inl ⟨_, rfl⟩))
    · obtain ⟨xs, rfl, rfl⟩ := h
      refine ⟨fun hc => clean_keysOk _ (by simpa only [Value.Clean] using hc),
        .inr ⟨_, xs, rfl, fun x hx => ?_⟩⟩
      exact (nullable_or (hm x hx)).imp (fun h => ⟨rfl, h⟩) id
    · obtain ⟨xs, rfl, ys, hy, rfl⟩ := h
      refine ⟨fun hc => clean_keysOk _ ?_, .inr ⟨ys, rfl, fun x hx => ?_⟩⟩
      · simp only [Value.Clean] at hc ⊢
        rw [allClean_iff] at hc ⊢
        exact fun x hx => hc x (setOfList_mem hy x hx)
      · exact (nullable_or (hm x (setOfList_mem hy x hx))).imp (fun h => ⟨rfl, h⟩) id
  case mapping a b c =>
    obtain ⟨kd, kvs, rfl, hm⟩ := hty
    simp only [attrTypeFn] at hf
    split at hf <;> simp only [Option.some.injEq, reduceCtorEq] at hf <;> subst hf <;>
      simp only [attrValue, Except.ok.injEq] at h
    · subst h
      refine ⟨fun hc => clean_keysOk _ ?_, .inr ⟨_, _, rfl, fun _ _ => .inr trivial⟩⟩
      simp only [Value.Clean] at hc ⊢
      rw [pairsClean_iff] at hc
      rw [allClean_iff]
      intro x hx
      obtain ⟨p, hp, rfl⟩ := List.mem_map.1 hx
      exact (hc p hp).1.2
    · subst h
      refine ⟨fun hc => clean_keysOk _ ?_, .inr ⟨_, _, rfl, fun _ _ => .inr trivial⟩⟩
      simp only [Value.Clean] at hc ⊢
      rw [pairsClean_iff] at hc
      rw [allClean_iff]
      intro x hx
      obtain ⟨p, hp, rfl⟩ := List.mem_map.1 hx
      exact (hc p hp).2
    · subst h; exact ⟨fun _ => by simp [Value.KeysOk], .inr ⟨_, rfl⟩⟩
    · subst h; exact hnum (.inr (.inl ⟨_, rfl⟩))
  case timedelta =>
    obtain ⟨us, rfl⟩ := hty
    simp only [attrTypeFn] at hf
    split at hf <;> simp only [Option.some.injEq, reduceCtorEq] at hf <;> subst hf <;>
      simp only [attrValue, Except.ok.injEq] at h <;> subst h <;>
      first | exact hnum (.inr (.inl ⟨_, rfl⟩)) | exact hnum (.inr (.inr ⟨_, rfl⟩))
  case datetime =>
    simp only [attrTypeFn] at hf
    rcases hty with ⟨us, tz, rfl⟩ | ⟨d, rfl⟩
    · cases tz <;> split at hf <;> simp only [Option.some.injEq, reduceCtorEq] at hf <;> subst hf <;>
        simp only [attrValue, Except.ok.injEq] at h <;> first
          | (subst h; exact hnum (.inr (.inl ⟨_, rfl⟩)))
          | (subst h; exact hnum (.inr (.inr ⟨_, rfl⟩)))
          | (subst h; exact hstr _)
          | (subst h; exact ⟨fun _ => by simp [Value.KeysOk], .inl rfl⟩)
          | (subst h; exact ⟨fun _ => by simp [Value.KeysOk], .inr (.inl ⟨_, _, rfl⟩)⟩)
          | (split at h <;> cases h
             · exact hstr _
             · exact ⟨fun _ => by simp [Value.KeysOk], .inl rfl⟩)
    · split at hf <;> simp only [Option.some.injEq, reduceCtorEq] at hf <;> subst hf <;>
        simp only [attrValue, Except.ok.injEq, reduceCtorEq] at h <;> subst h <;> first
          | exact hnum (.inr (.inl ⟨_, rfl⟩)) | exact hstr _
  case float =>
    simp only [attrTypeFn] at hf
    have hnk : (o.Clean → o.KeysOk) ∧ (o = .none ∨ o.HasType env.Returns .float) := hnum hty
    split at hf <;> simp only [Option.some.injEq, reduceCtorEq] at hf <;> subst hf <;>
      simp only [attrValue] at h
    · split at h <;> first
        | (cases shortInt_ok h; exact hnum (.inr (.inl ⟨_, rfl⟩))) | (cases h; exact hnum (.inl ⟨_, rfl⟩)) | cases h
    · split at h <;> first
        | (cases shortInt_ok h; exact hnum (.inr (.inl ⟨_, rfl⟩))) | (cases h; exact hnum (.inl ⟨_, rfl⟩)) | cases h
    · split at h
      all_goals first
        | (cases h; done)
        | (cases h; exact ⟨fun _ => by simp [Value.KeysOk], .inr ⟨_, rfl⟩⟩)
        | (split at h <;> cases h; exact ⟨fun _ => by simp [Value.KeysOk], .inr ⟨_, rfl⟩⟩)
    · cases h; exact hnk
    · simp only [except_bind_ok, Except.ok.injEq] at h
      obtain ⟨_, -, rfl⟩ := h
      exact hnk
    · split at h <;> cases h <;> exact hstr _
  case undefined => exact absurd rfl htu

/-- values whose type has the same attributes -/
theorem attrKind_same {env : Env} {t u : DataType} {o : Value} (htu : t ≠ .undefined) (ho : o ≠ .none)
    (hty : o.HasType env.Returns t) (hu : fromValue o = .ok u) : attrKind u = attrKind t := by
  have h := fromValue_hasType env.Returns o u hu
  have hune : u ≠ .undefined := by rintro rfl; exact fromValue_ne_undefined o hu
  cases t <;> simp only [Value.HasType] at hty
  case undefined => exact absurd rfl htu
  case null => exact absurd hty ho
  case function => 
    obtain ⟨hc, -⟩ := hty
    cases o <;> simp [Value.isCallable] at hc <;> simp only [fromValue, Except.ok.injEq] at hu <;>
      subst hu <;> rfl
  case datetime =>
    rcases hty with ⟨_, _, rfl⟩ | ⟨_, rfl⟩ <;> cases u <;>
      simp_all [Value.HasType, Value.isCallable, attrKind]
  case float =>
    rcases hty with ⟨_, rfl⟩ | ⟨_, rfl⟩ | ⟨_, rfl⟩ <;> cases u <;>
      simp_all [Value.HasType, Value.isCallable, attrKind]
  all_goals
    first
      | (obtain ⟨_, rfl⟩ := hty)
      | (obtain ⟨_, _, rfl, -⟩ := hty)
      | (obtain ⟨_, rfl, -⟩ := hty)
    all_goals
      cases u <;> simp_all [Value.HasType, Value.isCallable, attrKind]

theorem resolveAttr_none {env : Env} {name : String} {v : Value} :
    resolveAttr env .none name ≠ .ok v := by
  simp [resolveAttr, fromValue, attrKind]

/-- an attribute the engine provides -/
theorem resolveAttr_sound {env : Env} {t : DataType} {o v : Value} {name : String} {safe : Bool}
    (ho : o.Sound env st t) (h : resolveAttr env o name = .ok v) :
    v.Sound env st (attrNodeType t name safe) := by
  have hne : o ≠ .none := by rintro rfl; exact resolveAttr_none h
  have hty := ho.2.resolve_left hne
  unfold resolveAttr at h
  split at h
  · cases h
  · cases h
  rename_i u hu
  split at h
  · cases h
  rename_i k hk
  split at h
  · cases h
  rename_i f hf
  simp only [except_bind_ok, coerceVerify, Except.ok.injEq] at h
  obtain ⟨w, hw, c, ⟨ct, hct, rfl⟩, vt, hvt, h⟩ := h
  have hv : coerce env.utcoffset w = v := by
    rcases ite_cases h with ⟨-, h⟩ | ⟨-, h⟩
    · cases h; rfl
    · cases h
  subst hv
  have hune : u ≠ .undefined := by rintro rfl; exact fromValue_ne_undefined o hu
  constructor
  · intro hs
    have hko := (attrValue_sound hk hune (fromValue_hasType env.Returns o u hu) hf hw).1 (ho.1 hs)
    exact clean_of_type _ _ (keysOk_coerce _ _ hko) hct
  · unfold attrNodeType
    split
    · exact .inr trivial
    rename_i htu
    have htu : t ≠ .undefined := by rintro rfl; exact htu rfl
    split
    · exact .inr trivial
    have hk' : attrKind t = some k := by rw [← attrKind_same htu hne hty hu]; exact hk
    have hr : resolveAttrType t name = .ok (f t) := by simp only [resolveAttrType, hk', hf]
    rw [hr]
    rcases (attrValue_sound hk' htu hty hf hw).2 with rfl | h
    · exact .inl rfl
    · exact .inr (hasType_coerce _ _ _ _ h)

end RE
