import Verif.Props.SoundAttr

/-!
# Type soundness: calls and symbols (C08)
-/

set_option linter.unusedSimpArgs false
set_option linter.unusedVariables false
set_option linter.unusedTactic false

namespace RE

variable {st : Prop}

/-! ## Calls -/

theorem extreme_fold_mem {off : TzDb} {gt : Bool} : ∀ {xs : List Value} {x v : Value},
    xs.foldlM (fun cur y => do if ← pyLess off gt y cur then .ok y else .ok cur) x =
      (Except.ok v : Except Err Value) → v = x ∨ v ∈ xs
  | [], x, v, h => by
    simp only [List.foldlM_nil] at h
    cases h; exact .inl rfl
  | y :: ys, x, v, h => by
    simp only [List.foldlM_cons, except_bind_ok] at h
    obtain ⟨c, ⟨b, -, h1⟩, h2⟩ := h
    rcases extreme_fold_mem h2 with rfl | h
    · split at h1 <;> cases h1
      · exact .inr List.mem_cons_self
      · exact .inl rfl
    · exact .inr (List.mem_cons_of_mem _ h)

theorem pyExtreme_mem {off : TzDb} {gt : Bool} {xs : List Value} {v : Value}
    (h : pyExtreme off gt xs = .ok v) : v ∈ xs := by
  cases xs with
  | nil => cases h
  | cons x xs =>
    simp only [pyExtreme] at h
    rcases extreme_fold_mem h with rfl | h
    · exact List.mem_cons_self
    · exact List.mem_cons_of_mem _ h

theorem pySum_fold_num {env : Env} (hn : env.NoComplex) {dc : DecCtx} : ∀ {xs : List Value} {a v : Value},
    a.IsNum → xs.foldlM (fun acc x => numOp env dc .add acc x) a = .ok v → v.IsNum
  | [], a, v, ha, h => by
    simp only [List.foldlM_nil] at h
    cases h; exact ha
  | y :: ys, a, v, ha, h => by
    simp only [List.foldlM_cons, except_bind_ok] at h
    obtain ⟨c, h1, h2⟩ := h
    exact pySum_fold_num hn (numOp_num hn h1) h2

/-- Specification: functions the embedding program provides return no dictionaries with sets or
dictionaries as keys (Python does not allow such dictionaries). -/
structure Env.KeysOk (env : Env) : Prop where
  user : ∀ n args w, env.callUser n args = .ok w → w.KeysOk
  random : ∀ b, (env.random b).KeysOk

theorem pyRange_keysOk (a b c : Int) : (Value.seq .list (pyRange a b c)).KeysOk := by
  simp only [Value.KeysOk]
  rw [allKeysOk_iff]
  intro x hx
  simp only [pyRange, List.mem_map] at hx
  obtain ⟨_, -, rfl⟩ := hx
  trivial

theorem builtinRange_keysOk {args : List Value} {w : Value} (h : builtinRange args = .ok w) :
    w.KeysOk := by
  unfold builtinRange at h
  simp only at h
  repeat' split at h
  all_goals (try (cases h; done))
  all_goals
    simp only [except_bind_ok] at h
    obtain ⟨i, -, h⟩ := h
    repeat' split at h
  all_goals (try (simp only [except_bind_ok] at h))
  all_goals (try (simp only [Except.ok.injEq] at h; subst h; exact pyRange_keysOk _ _ _))
  all_goals
    obtain ⟨j, -, h⟩ := h
    repeat' split at h
    all_goals (try (simp only [except_bind_ok] at h))
    all_goals (try (simp only [Except.ok.injEq] at h; subst h; exact pyRange_keysOk _ _ _))
  all_goals
    obtain ⟨j, -, h⟩ := h
    simp only [Except.ok.injEq] at h; subst h; exact pyRange_keysOk _ _ _

theorem builtinSplit_keysOk {args : List Value} {w : Value} (h : builtinSplit args = .ok w) :
    w.KeysOk := by
  have hp : ∀ ps : List (List Char), (Value.tuple (ps.map fun p => .str (String.ofList p))).KeysOk := by
    intro ps
    simp only [Value.KeysOk]
    rw [allKeysOk_iff]
    intro x hx
    simp only [List.mem_map] at hx
    obtain ⟨i, -, rfl⟩ := hx
    trivial
  unfold builtinSplit at h
  simp only at h
  repeat' split at h
  all_goals (try (cases h; done))
  all_goals
    simp only [except_bind_ok] at h
    obtain ⟨i, -, h⟩ := h
    first
      | (obtain ⟨ps, -, h⟩ := h
         simp only [Except.ok.injEq] at h
         subst h
         exact hp ps)
      | (cases h; done)

theorem callBasic_keysOk {env : Env} (hn : env.NoComplex) (hk : env.KeysOk) {dc : DecCtx} {f w : Value}
    {args : List Value} (ha : ∀ a ∈ args, a.Clean) (h : callBasic env dc f args = .ok w) :
    w.KeysOk := by
  cases f <;> simp only [callBasic, reduceCtorEq] at h
  case userFn n => exact hk.user n args w h
  case method m self =>
    unfold callMethod at h
    simp only at h
    repeat' split at h
    all_goals first
      | (cases h; done)
      | (cases h; simp [Value.KeysOk]; done)
      | (simp only [except_bind_ok, Except.ok.injEq] at h
         obtain ⟨_, -, _, -, rfl⟩ := h
         simp [Value.KeysOk])
  case builtinFn b =>
    unfold callBuiltin at h
    split at h
    · rename_i d
      rcases hx : decAbs dc d with e | y <;> rw [hx] at h <;> cases h
      simp [Value.KeysOk]
    · cases h; simp [Value.KeysOk]
    · cases h; simp [Value.KeysOk]
    · rw [mkTimedelta_ok h]; simp [Value.KeysOk]
    · simp only [except_bind_ok, Except.ok.injEq] at h
      obtain ⟨_, -, rfl⟩ := h
      simp [Value.KeysOk]
    · simp only [except_bind_ok, Except.ok.injEq] at h
      obtain ⟨_, -, rfl⟩ := h
      simp [Value.KeysOk]
    · simp only [except_bind_ok] at h
      obtain ⟨xs, -, h⟩ := h
      exact keysOk_num (pySum_fold_num hn (.inr (.inl ⟨_, rfl⟩)) h)
    · simp only [except_bind_ok] at h
      obtain ⟨xs, hx, h⟩ := h
      exact clean_keysOk _ (clean_members (ha _ (by simp)) hx _ (pyExtreme_mem h))
    · simp only [except_bind_ok] at h
      obtain ⟨xs, hx, h⟩ := h
      exact clean_keysOk _ (clean_members (ha _ (by simp)) hx _ (pyExtreme_mem h))
    · unfold parseDatetime at h
      split at h <;> cases h <;> simp [Value.KeysOk]
    · rename_i s
      rcases hx : parseFloat s.toList with e | y <;> rw [hx] at h <;> cases h
      simp [Value.KeysOk]
    · rename_i s
      rcases hx : parseTimedelta s.toList with e | y <;> rw [hx] at h <;> cases h
      simp [Value.KeysOk]
    · cases h; exact hk.random _
    · split at h
      · simp only [except_bind_ok] at h
        obtain ⟨b, -, h⟩ := h
        split at h <;> cases h
        exact hk.random _
      · cases h; exact hk.random _
    · exact builtinRange_keysOk h
    · exact builtinSplit_keysOk h
    · cases h

theorem mapCalls_keysOk {env : Env} (hn : env.NoComplex) (hk : env.KeysOk) {dc : DecCtx} {f : Value} :
    ∀ {xs : List Value}, (∀ x ∈ xs, x.Clean) → ∀ {s s' : St} {ys : List Value},
    mapCalls env dc f xs s = (.ok ys, s') → ∀ y ∈ ys, y.KeysOk
  | [], _, s, s', ys, h => by
    simp only [mapCalls, M.pure_eq_ok] at h
    obtain ⟨rfl, -⟩ := h
    simp
  | x :: xs, hx, s, s', ys, h => by
    simp only [mapCalls, M.bind_eq_ok, M.pure_eq_ok] at h
    obtain ⟨y, s1, h1, zs, s2, h2, rfl, rfl⟩ := h
    intro z hz
    rcases List.mem_cons.1 hz with rfl | hz
    · simp only [callLogged, Prod.mk.injEq] at h1
      exact callBasic_keysOk hn hk (by simpa using hx x List.mem_cons_self) h1.1
    · exact mapCalls_keysOk hn hk (fun x h => hx x (List.mem_cons_of_mem _ h)) h2 z hz

theorem filterCalls_mem {env : Env} {dc : DecCtx} {f : Value} :
    ∀ {xs : List Value} {s s' : St} {ys : List Value},
    filterCalls env dc f xs s = (.ok ys, s') → ∀ y ∈ ys, y ∈ xs
  | [], s, s', ys, h => by
    simp only [filterCalls, M.pure_eq_ok] at h
    obtain ⟨rfl, -⟩ := h
    simp
  | x :: xs, s, s', ys, h => by
    simp only [filterCalls, M.bind_eq_ok, M.pure_eq_ok] at h
    obtain ⟨y, s1, h1, zs, s2, h2, rfl, rfl⟩ := h
    intro z hz
    have ih := filterCalls_mem h2
    split at hz
    · rcases List.mem_cons.1 hz with rfl | hz
      · exact List.mem_cons_self
      · exact List.mem_cons_of_mem _ (ih z hz)
    · exact List.mem_cons_of_mem _ (ih z hz)

theorem callFn_keysOk {env : Env} (hn : env.NoComplex) (hk : env.KeysOk) {dc : DecCtx} {f w : Value}
    {args : List Value} {s s' : St} (ha : ∀ a ∈ args, a.Clean)
    (h : callFn env dc f args s = (.ok w, s')) : w.KeysOk := by
  unfold callFn at h
  split at h
  · simp only [M.bind_eq_ok, M.lift_eq_ok, M.pure_eq_ok] at h
    obtain ⟨_, _, -, xs, _, ⟨hx, rfl⟩, ys, s3, h3, rfl, -⟩ := h
    simp only [Value.KeysOk]
    rw [allKeysOk_iff]
    exact mapCalls_keysOk hn hk (clean_members (ha _ (by simp)) hx) h3
  · simp only [M.bind_eq_ok, M.lift_eq_ok, M.pure_eq_ok] at h
    obtain ⟨_, _, -, xs, _, ⟨hx, rfl⟩, ys, s3, h3, rfl, -⟩ := h
    simp only [Value.KeysOk]
    rw [allKeysOk_iff]
    exact fun y hy => clean_keysOk _ (clean_members (ha _ (by simp)) hx _ (filterCalls_mem h3 y hy))
  · simp only [callLogged, Prod.mk.injEq] at h
    exact callBasic_keysOk hn hk ha h.1

theorem mapCalls_scopes {env : Env} {dc : DecCtx} {f : Value} : ∀ {xs : List Value} {s s' : St}
    {ys : List Value}, mapCalls env dc f xs s = (.ok ys, s') → s'.scopes = s.scopes
  | [], s, s', ys, h => by
    simp only [mapCalls, M.pure_eq_ok] at h
    rw [h.2]
  | x :: xs, s, s', ys, h => by
    simp only [mapCalls, M.bind_eq_ok, M.pure_eq_ok] at h
    obtain ⟨y, s1, h1, zs, s2, h2, rfl, rfl⟩ := h
    simp only [callLogged, Prod.mk.injEq] at h1
    rw [mapCalls_scopes h2, ← h1.2]

theorem filterCalls_scopes {env : Env} {dc : DecCtx} {f : Value} : ∀ {xs : List Value} {s s' : St}
    {ys : List Value}, filterCalls env dc f xs s = (.ok ys, s') → s'.scopes = s.scopes
  | [], s, s', ys, h => by
    simp only [filterCalls, M.pure_eq_ok] at h
    rw [h.2]
  | x :: xs, s, s', ys, h => by
    simp only [filterCalls, M.bind_eq_ok, M.pure_eq_ok] at h
    obtain ⟨y, s1, h1, zs, s2, h2, rfl, rfl⟩ := h
    simp only [callLogged, Prod.mk.injEq] at h1
    rw [filterCalls_scopes h2, ← h1.2]

theorem callFn_scopes {env : Env} {dc : DecCtx} {f w : Value} {args : List Value} {s s' : St}
    (h : callFn env dc f args s = (.ok w, s')) : s'.scopes = s.scopes := by
  unfold callFn at h
  split at h
  · simp only [M.bind_eq_ok, M.lift_eq_ok, M.pure_eq_ok, M.modify_apply, Prod.mk.injEq] at h
    obtain ⟨_, _, ⟨-, rfl⟩, xs, _, ⟨hx, rfl⟩, ys, s3, h3, rfl, rfl⟩ := h
    rw [mapCalls_scopes h3]
  · simp only [M.bind_eq_ok, M.lift_eq_ok, M.pure_eq_ok, M.modify_apply, Prod.mk.injEq] at h
    obtain ⟨_, _, ⟨-, rfl⟩, xs, _, ⟨hx, rfl⟩, ys, s3, h3, rfl, rfl⟩ := h
    rw [filterCalls_scopes h3]
  · simp only [callLogged, Prod.mk.injEq] at h
    rw [← h.2]

/-- a call -/
theorem finishCall_sound {env : Env} (hn : env.NoComplex) (hk : st → env.KeysOk) {dc : DecCtx}
    {ft : DataType} {f w : Value} {args : List Value} {s s' : St} (hf : f.Sound env st ft)
    (hcall : f.isCallable = true) (ha : st → ∀ a ∈ args, a.Clean)
    (h : finishCall env dc (callNodeType ft) f args s = (.ok w, s')) :
    w.Sound env st (callNodeType ft) ∧ s'.scopes = s.scopes := by
  simp only [finishCall, M.bind_eq_ok, M.lift_eq_ok] at h
  obtain ⟨r, s1, h1, c, s2, ⟨hc, rfl⟩, t, s3, ⟨ht, rfl⟩, h⟩ := h
  simp only [coerceVerify, except_bind_ok, Except.ok.injEq] at hc
  obtain ⟨ct, hct, rfl⟩ := hc
  have h1' : callFn env dc f args s = (.ok r, s1) := by
    simp only [M.catchErr] at h1
    rcases hx : callFn env dc f args s with ⟨y, s4⟩
    rw [hx] at h1
    cases y with
    | error e => simp at h1
    | ok a => simpa using h1
  split at h
  · rename_i hcomp
    rw [M.pure_eq_ok] at h
    obtain ⟨rfl, rfl⟩ := h
    refine ⟨⟨fun hs => ?_, ?_⟩, callFn_scopes h1'⟩
    · exact clean_localise _ _ (clean_of_type _ _
        (keysOk_coerce _ _ (callFn_keysOk hn (hk hs) (ha hs) h1')) hct)
    · have hret : env.Returns f (localise env (coerce env.utcoffset r)) :=
        ⟨dc, args, s, s1, r, h1', rfl⟩
      rcases hf.2 with rfl | hty
      · simp [Value.isCallable] at hcall
      cases ft <;> try exact .inr trivial
      exact .inr (hty.2 _ _ hret ht hcomp)
  · simp at h

theorem evalCall_sound {env : Env} (hn : env.NoComplex) (hk : st → env.KeysOk) {dc : DecCtx}
    {ft : DataType} {f w : Value} {args : List Value} {s s' : St} (hf : f.Sound env st ft)
    (hcall : f.isCallable = true) (ha : st → ∀ a ∈ args, a.Clean)
    (h : evalCall env dc ft (callNodeType ft) f args s = (.ok w, s')) :
    w.Sound env st (callNodeType ft) ∧ s'.scopes = s.scopes := by
  unfold evalCall at h
  split at h
  · exact finishCall_sound hn hk hf hcall ha h
  · simp only [M.bind_eq_ok, M.lift_eq_ok] at h
    obtain ⟨_, _, ⟨-, rfl⟩, h⟩ := h
    exact finishCall_sound hn hk hf hcall ha h

/-! ## Symbols -/

theorem clean_strings {env : Env} {v : Value} (h : v.HasType env.Returns (.array .string true)) :
    v.Clean := by
  obtain ⟨k, xs, rfl, h⟩ := h
  simp only [Value.Clean]
  rw [allClean_iff]
  intro x hx
  rcases h x hx with ⟨-, rfl⟩ | ⟨_, rfl⟩ <;> trivial

theorem range_function (env : Env) (a : Option (List DataType)) (m : Option Nat) :
    (Value.builtinFn .range).HasType env.Returns (.function "range" (.array .float true) a m) :=
  ⟨rfl, fun r t hr _ _ => range_returns hr⟩

theorem split_function (env : Env) (a : Option (List DataType)) (m : Option Nat) :
    (Value.builtinFn .split).HasType env.Returns (.function "split" (.array .string true) a m) :=
  ⟨rfl, fun r t hr _ _ => split_returns hr⟩

/-- the builtin symbols -/
theorem builtin_sound {env : Env} {groups v w : Value} {name : String}
    (h : builtinValue env groups name = some v)
    (hc : checkSymbol name (builtinType name) (newValue env v) = .ok w) :
    w.Sound env st (builtinType name) := by
  have hw : w = newValue env v := checkSymbol_ok hc
  subst hw
  unfold builtinValue at h
  split at h
  · cases h; exact sound_newValue ⟨fun _ => trivial, .inr (.inl ⟨_, rfl⟩)⟩
  · cases h; exact sound_newValue ⟨fun _ => trivial, .inr (.inl ⟨_, rfl⟩)⟩
  · cases h; exact sound_newValue ⟨fun _ => trivial, .inr (.inl ⟨_, _, rfl⟩)⟩
  · cases h; exact sound_newValue ⟨fun _ => trivial, .inr (.inl ⟨_, _, rfl⟩)⟩
  · cases h
    rcases checkSymbol_sound hc env.Returns with h | h
    · rw [h]; exact sound_none
    · exact ⟨fun _ => clean_strings h, .inr h⟩
  · apply sound_newValue
    simp only [Option.map_eq_some_iff] at h
    obtain ⟨b, hb, rfl⟩ := h
    unfold builtinNamed at hb
    refine ⟨fun _ => trivial, .inr ?_⟩
    split at hb <;> cases hb <;> first
      | exact flat_function _ rfl rfl
      | exact range_function _ _ _
      | exact split_function _ _ _

end RE
