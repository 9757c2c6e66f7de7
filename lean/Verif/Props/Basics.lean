import Verif.Props.Types
import Verif.Props.Names
import Verif.Model.Sample

/-!
# The kinds of values, and the default resolver

Two small tables, stated so that each row stands alone: which Python values have which data type
(`DataType.from_value`, types.py 525-560), and what `resolve_item` (engine.py 75-89) answers.
-/

set_option linter.unusedSimpArgs false

namespace RE

/-- The Python values of each data type; the member types of collections are the matter of `fromValue_array_precise`. -/
inductive KindOf : Value → DataType → Prop
  | none : KindOf .none .null
  | bool b : KindOf (.bool b) .boolean
  | int i : KindOf (.int i) .float
  | float f : KindOf (.float f) .float
  | dec d : KindOf (.dec d) .float
  | str s : KindOf (.str s) .string
  | bytes b : KindOf (.bytes b) .bytes
  | date d : KindOf (.date d) .datetime
  | datetime u z : KindOf (.datetime u z) .datetime
  | timedelta u : KindOf (.timedelta u) .timedelta
  | seq k xs m n : KindOf (.seq k xs) (.array m n)
  | set xs m n : KindOf (.set xs) (.set m n)
  | map k kvs kt vt n : KindOf (.map k kvs) (.mapping kt vt n)
  | builtin f : KindOf (.builtinFn f) .anyFunction
  | user f : KindOf (.userFn f) .anyFunction
  | method m v : KindOf (.method m v) .anyFunction

/-- **C12.** `DataType.from_value` reports the kind of the value: numbers (int, float, Decimal) are FLOAT and nothing else
is, dates and datetimes are DATETIME, durations are TIMEDELTA and not numbers, and so on. -/
theorem fromValue_kindOf {v : Value} {t : DataType} (h : fromValue v = .ok t) : KindOf v t := by
  cases v
  case seq => simp only [fromValue] at h; obtain ⟨_, _, h⟩ := except_bind_ok.1 h; cases h; constructor
  case set => simp only [fromValue] at h; obtain ⟨_, _, h⟩ := except_bind_ok.1 h; cases h; constructor
  case map =>
    simp only [fromValue] at h
    obtain ⟨_, _, h⟩ := except_bind_ok.1 h
    obtain ⟨_, _, h⟩ := except_bind_ok.1 h
    unfold mkMappingType at h
    split at h
    · cases h
    · cases h; constructor
  case obj => simp only [fromValue] at h; cases h
  case undef => simp only [fromValue] at h; cases h
  all_goals simp only [fromValue] at h; cases h; constructor

/-- **C12.** Conversely a value that is not a collection has the type of its kind; objects of other classes have none. -/
theorem fromValue_of_scalar {v : Value} {t : DataType} (h : KindOf v t)
    (hs : ∀ k xs, v ≠ .seq k xs) (hm : ∀ k xs, v ≠ .map k xs) (hset : ∀ xs, v ≠ .set xs) : fromValue v = .ok t := by
  cases h
  case seq k xs _ _ => exact (hs k xs rfl).elim
  case set xs _ _ => exact (hset xs rfl).elim
  case map k kvs _ _ _ => exact (hm k kvs rfl).elim
  all_goals rfl

/-- an object of a class the engine does not know has no type -/
theorem fromValue_foreign (i : Nat) : fromValue (.obj i) = .error .typeError ∧ ¬ ∃ t, KindOf (.obj i) t :=
  ⟨rfl, by rintro ⟨t, h⟩; cases h⟩

/-- `pyEq` against a text -/
theorem pyEq_str_right (off : TzDb) (v : Value) (n : String) : pyEq off v (.str n) = true ↔ v = .str n := by
  cases v <;> simp [pyEq, Value.asNumber]

/-- **C13.** The default resolver: a name stands for the value of the first item of the mapping with that key, and for
nothing else. -/
theorem default_resolver_ok (off : TzDb) (thing : Value) (n : String) (v : Value) :
    resolveItem off thing n = .ok v ↔
      ∃ k pre post, thing = .map k (pre ++ (.str n, v) :: post) ∧ ∀ p ∈ pre, p.1 ≠ .str n := by
  constructor
  · intro h
    unfold resolveItem at h
    split at h
    case h_2 => cases h
    case h_1 k kvs =>
    split at h
    case h_2 => split at h <;> cases h
    case h_1 w hw =>
    cases h
    simp only [mapLookup, Option.map_eq_some_iff] at hw
    obtain ⟨p, hp, rfl⟩ := hw
    obtain ⟨he, pre, post, rfl, hpre⟩ := List.find?_eq_some_iff_append.1 hp
    rw [pyEq_str_right] at he
    refine ⟨k, pre, post, by rw [← he], fun q hq hqe => ?_⟩
    have := hpre q hq
    rw [hqe] at this
    simp [pyEq] at this
  · rintro ⟨k, pre, post, rfl, hpre⟩
    have hf : List.find? (fun p => pyEq off p.1 (.str n)) (pre ++ (Value.str n, v) :: post) = some (.str n, v) := by
      refine List.find?_eq_some_iff_append.2 ⟨by simp [pyEq], pre, post, rfl, fun q hq => ?_⟩
      rcases hb : pyEq off q.1 (.str n) with _ | _
      · rfl
      · exact (hpre q hq ((pyEq_str_right off _ n).1 hb)).elim
    simp only [resolveItem, mapLookup, hf, Option.map_some]

/-- **C13.** A name the default resolver cannot resolve is a SymbolResolutionError naming it, whether the thing lacks the
key or is no mapping at all; only if some key of the mapping is not a string is it a TypeError (raised while a suggestion
is looked for). -/
theorem default_resolver_error (off : TzDb) (thing : Value) (n : String)
    (h : ∀ k kvs, thing = .map k kvs → ∀ p ∈ kvs, p.1 ≠ .str n) :
    resolveItem off thing n = .error (.eng (.symbolResolution n)) ∨
    (resolveItem off thing n = .error .typeError ∧ ∃ k kvs, thing = .map k kvs ∧ ∃ p ∈ kvs, ∀ s, p.1 ≠ .str s) := by
  unfold resolveItem
  split
  case h_2 => exact .inl rfl
  case h_1 k kvs =>
  have hf : mapLookup off kvs (.str n) = none := by
    simp only [mapLookup, Option.map_eq_none_iff, List.find?_eq_none]
    intro p hp hq
    exact h k kvs rfl p hp ((pyEq_str_right off _ n).1 hq)
  rw [hf]
  by_cases hs : (kvs.all fun p => p.1.isStr) = true
  · simp [hs]
  · simp only [hs, if_false]
    refine .inr ⟨rfl, k, kvs, rfl, ?_⟩
    simp only [List.all_eq_true, not_forall] at hs
    obtain ⟨p, hp, hs⟩ := hs
    exact ⟨p, hp, fun s he => hs (by rw [he]; rfl)⟩

/-- The hypotheses are met: of a mapping with the key `a`, `a` is found and `b` is not. -/
theorem default_resolver_sample (off : TzDb) :
    resolveItem off (dictOf [("a", .int 1)]) "a" = .ok (.int 1) ∧
    resolveItem off (dictOf [("a", .int 1)]) "b" = .error (.eng (.symbolResolution "b")) ∧
    resolveItem off (dictOf []) "b" = .error (.eng (.symbolResolution "b")) := by
  refine ⟨(default_resolver_ok _ _ _ _).2 ⟨_, [], [], rfl, by simp⟩, ?_, ?_⟩
  · rcases default_resolver_error off (dictOf [("a", .int 1)]) "b" (by
      rintro k kvs h p hp; cases h; simp at hp; subst hp; simp) with h | ⟨-, k, kvs, h, p, hp, hs⟩
    · exact h
    · cases h; simp at hp; subst hp; exact (hs "a" rfl).elim
  · rfl

end RE
