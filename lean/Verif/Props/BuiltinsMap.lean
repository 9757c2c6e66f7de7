import Verif.Model.BuiltinsMap
import Verif.Props.TypeDefs
import Verif.Props.NameErrors

/-!
# Builtin symbols: defaults, overrides, namespaces (C61)
-/

set_option linter.unusedSimpArgs false

namespace RE

/-! ### `dict.update` -/

theorem lookup_map_snd {α : Type} (f : String → α → α) (n : String) : ∀ d : List (String × α),
    (d.map (fun p => (p.1, f p.1 p.2))).lookup n = (d.lookup n).map (f n)
  | [] => rfl
  | (k, v) :: d => by
    simp only [List.map_cons, List.lookup_cons]
    by_cases h : n = k
    · subst h; simp
    · rw [show (n == k) = false by simpa using h]; exact lookup_map_snd f n d

theorem lookup_appended {α : Type} (n : String) (b : List (String × α)) : ∀ a : List (String × α),
    (a ++ b).lookup n = (a.lookup n).or (b.lookup n)
  | [] => by simp
  | (k, v) :: a => by
    simp only [List.cons_append, List.lookup_cons]
    split
    · simp
    · exact lookup_appended n b a

theorem lookup_filter {α : Type} (n : String) (p : String → Bool) : ∀ a : List (String × α),
    (a.filter (fun x => p x.1)).lookup n = if p n then a.lookup n else none
  | [] => by simp
  | (k, v) :: a => by
    have ih := lookup_filter n p a
    by_cases h : n = k
    · subst h
      by_cases hp : p n = true
      · simp [List.filter_cons, List.lookup_cons, hp]
      · simp only [List.filter_cons, hp, Bool.false_eq_true, if_false] at ih ⊢
        exact ih
    · have hk : (n == k) = false := by simpa using h
      by_cases hp : p k = true
      · simp only [List.filter_cons, hp, if_true, List.lookup_cons, hk]; exact ih
      · simp only [List.filter_cons, hp, Bool.false_eq_true, if_false, List.lookup_cons, hk]; exact ih

theorem lookup_isSome {α : Type} (n : String) : ∀ a : List (String × α), (a.lookup n).isSome = (a.map (·.1)).contains n
  | [] => rfl
  | (k, v) :: a => by
    simp only [List.lookup_cons, List.map_cons, List.contains_cons]
    by_cases h : n = k
    · subst h; simp
    · rw [show (n == k) = false by simpa using h]; simpa using lookup_isSome n a

/-- **C61.** `dict.update`: the new entries win, the others stay. -/
theorem dictUpdate_lookup {α : Type} (d u : List (String × α)) (n : String) :
    (dictUpdate d u).lookup n = (u.lookup n).or (d.lookup n) := by
  unfold dictUpdate
  rw [lookup_appended, lookup_map_snd (fun k v => (u.lookup k).getD v), lookup_filter n (fun k => !(d.map (·.1)).contains k)]
  have h := lookup_isSome n d
  cases hd : d.lookup n with
  | none =>
    rw [hd] at h
    rw [← h]
    cases u.lookup n <;> simp
  | some v => cases u.lookup n <;> simp

/-! ### Values -/

/-- **C61.** What `from_defaults` gives under a name: the value that was given for it, and otherwise the default. -/
theorem builtins_override (env : Env) (values : List (String × BEntry)) (types : List (String × DataType))
    (ns : Option String) (tz : Nat) (name : String) :
    (∀ e, values.lookup name = some e →
      (Builtins.fromDefaults env values types ns tz).getItem name = Builtins.getItem ⟨[(name, e)], [], ns, tz⟩ name) ∧
    (values.lookup name = none →
      (Builtins.fromDefaults env values types ns tz).getItem name = Builtins.getItem ⟨defaultEntries env, [], ns, tz⟩ name) := by
  constructor
  · intro e he
    simp [Builtins.getItem, Builtins.fromDefaults, dictUpdate_lookup, he, Builtins.subspace]
  · intro he
    simp [Builtins.getItem, Builtins.fromDefaults, dictUpdate_lookup, he, Builtins.subspace]

/-- **C61.** The type of a builtin is the one given for it, otherwise that of the default of the same name (also if the
value was replaced), otherwise UNDEFINED. -/
theorem builtins_types (env : Env) (values : List (String × BEntry)) (types : List (String × DataType))
    (ns : Option String) (tz : Nat) (name : String) :
    (Builtins.fromDefaults env values types ns tz).resolveType name =
      ((types.lookup name).or (defaultTypes.lookup name)).getD .undefined := by
  simp [Builtins.resolveType, Builtins.fromDefaults, dictUpdate_lookup]

/-- **C61.** Iteration lists each name once, and exactly the names of the defaults and those given; `len` is their
number. -/
theorem builtins_keys (env : Env) (values : List (String × BEntry)) (types : List (String × DataType))
    (ns : Option String) (tz : Nat) (hv : (values.map (·.1)).Nodup) :
    let b := Builtins.fromDefaults env values types ns tz
    b.keys.Nodup ∧ b.keys.length = b.len ∧
    ∀ n, n ∈ b.keys ↔ n ∈ (defaultEntries env).map (·.1) ∨ n ∈ values.map (·.1) := by
  have hd : ((defaultEntries env).map (·.1)).Nodup := by
    simp only [defaultEntries, List.map_cons, List.map_nil]; decide
  have hk : (Builtins.fromDefaults env values types ns tz).keys =
      (defaultEntries env).map (·.1) ++
        (values.map (·.1)).filter (fun n => !((defaultEntries env).map (·.1)).contains n) := by
    simp only [Builtins.keys, Builtins.fromDefaults, dictUpdate, List.map_append, List.map_map, List.filter_map]
    rfl
  refine ⟨?_, by simp [Builtins.keys, Builtins.len], fun n => ?_⟩
  · rw [hk, List.nodup_append]
    refine ⟨hd, hv.filter _, fun a ha b hb he => ?_⟩
    subst he
    rw [List.mem_filter] at hb
    simp only [Bool.not_eq_true', ← Bool.not_eq_true, List.contains_iff_mem] at hb
    exact hb.2 ha
  · rw [hk, List.mem_append, List.mem_filter]
    simp only [Bool.not_eq_true', ← Bool.not_eq_true, List.contains_iff_mem]
    by_cases h : n ∈ (defaultEntries env).map (·.1) <;> simp [h]

/-! ### Resolution -/

/-- **C61.** `$name`: an unknown name is a SymbolResolutionError naming it. -/
theorem builtins_unknown (b : Builtins) (name : String) (h : name ∉ b.keys) :
    b.resolve name = (.error (.eng (.symbolResolution name)), 0) := by
  have hl : b.values.lookup name = none := by
    have := lookup_isSome name b.values
    rw [show (b.values.map (·.1)).contains name = false by simpa [Builtins.keys] using h] at this
    simpa using this
  simp [Builtins.resolve, Builtins.contains, Builtins.getItem, hl]

/-- **C61.** `$name` of a known name: a plain value is itself; a namespace is a `Builtins` of its own, with the same
timezone, the dotted namespace, and no types; a generated value is what the generator returns when called with the
namespace and timezone of the instance — it is called twice (once for `name in builtins`); a KeyError of the generator
counts as an unknown name, other errors are passed on. -/
theorem builtins_known (b : Builtins) (name : String) :
    (∀ v, b.values.lookup name = some (.value v) → b.resolve name = (.ok (.value v), 0)) ∧
    (∀ kvs, b.values.lookup name = some (.nested kvs) → ∃ sub, b.resolve name = (.ok (.nested sub), 0) ∧
      sub.values = kvs ∧ sub.timezone = b.timezone ∧
      (sub.ns = some (match b.ns with | none => name | some n => n ++ "." ++ name)) ∧
      ∀ n, sub.resolveType n = .undefined) ∧
    (∀ g v, b.values.lookup name = some (.generator g) → g b.ns b.timezone = .ok v →
      b.resolve name = (.ok (.value v), 2)) ∧
    (∀ g e, b.values.lookup name = some (.generator g) → g b.ns b.timezone = .error e →
      b.resolve name = (.error (if e = .py .keyError then .eng (.symbolResolution name) else e), 1)) := by
  refine ⟨fun v h => ?_, fun kvs h => ?_, fun g v h hg => ?_, fun g e h hg => ?_⟩
  · simp [Builtins.resolve, Builtins.contains, Builtins.getItem, h]
  · refine ⟨⟨kvs, [], some (b.subspace name), b.timezone⟩, ?_, rfl, rfl, rfl, fun n => rfl⟩
    simp [Builtins.resolve, Builtins.contains, Builtins.getItem, h]
  · simp [Builtins.resolve, Builtins.contains, Builtins.getItem, h, hg, Except.map]
  · by_cases he : e = .py .keyError
    · subst he
      simp [Builtins.resolve, Builtins.contains, Builtins.getItem, h, hg, Except.map]
    · simp only [Builtins.resolve, Builtins.contains, Builtins.getItem, h, hg, Except.map, he, if_false]

/-! ### Namespaces as values -/

/-- **C61.** A namespace as a value has the names of the namespace, each with the value it has in the instance; it can be
made only if every generated value in it can be. -/
theorem namespace_items (ns : Option String) (tz : Nat) : ∀ (kvs : List (String × BEntry)) (items : List (Value × Value)),
    BEntry.toItems ns tz kvs = .ok items ↔
      List.Forall₂ (fun p q => q.1 = Value.str p.1 ∧ p.2.toValue ns tz p.1 = .ok q.2) kvs items
  | [], items => by
    simp only [BEntry.toItems, Except.ok.injEq]
    constructor
    · rintro rfl; exact .nil
    · intro h; cases h; rfl
  | (n, e) :: rest, items => by
    simp only [BEntry.toItems, except_bind_ok]
    constructor
    · rintro ⟨v, hv, vs, hvs, h⟩
      cases h
      exact .cons ⟨rfl, hv⟩ ((namespace_items ns tz rest vs).1 hvs)
    · rintro (_ | ⟨⟨h1, h2⟩, h⟩)
      rename_i q items
      obtain ⟨k, v⟩ := q
      simp only at h1 h2
      subst h1
      exact ⟨v, h2, items, (namespace_items ns tz rest items).2 h, rfl⟩

/-- **C61.** With the default resolver `$ns.name` is the item `name` of the namespace: looking the name up in the value
of `$ns` gives the value it has in the instance. -/
theorem namespace_attribute (off : TzDb) (ns : Option String) (tz : Nat) (kvs : List (String × BEntry))
    (items : List (Value × Value)) (name : String) (h : BEntry.toItems ns tz kvs = .ok items) :
    (∀ e, kvs.lookup name = some e → ∃ v, e.toValue ns tz name = .ok v ∧
      resolveItem off (.map .dict items) name = .ok v) ∧
    (kvs.lookup name = none → resolveItem off (.map .dict items) name = .error (.eng (.symbolResolution name))) := by
  rw [namespace_items] at h
  have hall : items.all (fun p => p.1.isStr) = true := by
    induction h with
    | nil => rfl
    | cons h _ ih => simp only [List.all_cons, ih, h.1, Bool.and_true]; rfl
  have key : (∀ e, kvs.lookup name = some e → ∃ v, e.toValue ns tz name = .ok v ∧
      mapLookup off items (.str name) = some v) ∧ (kvs.lookup name = none → mapLookup off items (.str name) = none) := by
    clear hall
    induction h with
    | nil => simp [mapLookup]
    | @cons p q kvs items hp _ ih =>
      obtain ⟨k, e⟩ := p
      obtain ⟨k', v⟩ := q
      simp only at hp
      obtain ⟨rfl, hv⟩ := hp
      by_cases hn : name = k
      · subst hn
        refine ⟨?_, ?_⟩
        · intro e' he
          simp only [List.lookup_cons, beq_self_eq_true, Option.some.injEq] at he
          subst he
          exact ⟨v, hv, by simp [mapLookup, pyEq]⟩
        · intro he
          simp at he
      · have h1 : (name == k) = false := by simpa using hn
        have h2 : pyEq off (.str k) (.str name) = false := by simpa [pyEq] using fun h => hn h.symm
        simp only [List.lookup_cons, h1, mapLookup, List.find?_cons, h2]
        exact ih
  constructor
  · intro e he
    obtain ⟨v, hv, hm⟩ := key.1 e he
    exact ⟨v, hv, by simp [resolveItem, hm]⟩
  · intro he
    simp [resolveItem, key.2 he, hall]

/-! ### The builtins of a context -/

/-- **C61.** The table of builtins used in the rest of the model is what the class `Builtins` computes for the instance a
context makes: values, unknown names, and types. -/
theorem context_builtins (env : Env) (groups : Value) (name : String) :
    ((contextBuiltins env groups).resolve name).1 =
      (match builtinValue env groups name with
      | some v => .ok (.value v)
      | none => .error (.eng (.symbolResolution name))) ∧
    (contextBuiltins env groups).resolveType name = builtinType name := by
  constructor
  · by_cases hn : name ∈ builtinNames
    · simp only [builtinNames, List.mem_cons, List.not_mem_nil, or_false] at hn
      rcases hn with rfl | rfl | rfl | rfl | rfl | rfl | rfl | rfl | rfl | rfl | rfl | rfl | rfl | rfl | rfl | rfl | rfl |
        rfl | rfl <;> rfl
    · rw [(builtinValue_iff env groups name).2 hn, builtins_unknown]
      refine fun h => hn ?_
      have := ((builtins_keys env [("re_groups", BEntry.generator fun _ _ => .ok groups)] [("re_groups", .array .string true)]
        none env.defaultTz (by simp)).2.2 name).1 h
      simp only [defaultEntries, List.map_cons, List.map_nil, List.mem_cons, List.not_mem_nil, or_false] at this
      simp only [builtinNames, List.mem_cons, List.not_mem_nil, or_false]
      tauto
  · rw [contextBuiltins, builtins_types]
    unfold builtinType
    split <;> first
      | rfl
      | (have h1 : defaultTypes.lookup name = none := by
           have := lookup_isSome name defaultTypes
           rw [show (defaultTypes.map (·.1)).contains name = false by
             simp only [defaultTypes, List.map_cons, List.map_nil]
             simp_all] at this
           simpa using this
         have h2 : (name == "re_groups") = false := by simpa
         simp [List.lookup_cons, h1, h2])

/-- The hypotheses are met: with `$pi` replaced by a text and a namespace `$a` with a plain and a generated value, `$pi`
is the text but still has the type FLOAT, `$e` is unchanged, `$a.b` is found and `$a`'s instance is called `a`. -/
theorem builtins_sample (env : Env) :
    let g : Option String → Nat → Except Err Value := fun n _ => .ok (.str (n.getD ""))
    let b := Builtins.fromDefaults env [("pi", .value (.str "3")), ("a", .nested [("b", .value (.int 1)), ("c", .generator g)])]
      [("a", .anyMapping)] none 0
    b.resolve "pi" = (.ok (.value (.str "3")), 0) ∧ b.resolveType "pi" = .float ∧
    b.resolve "e" = (.ok (.value (.dec (.fin false 2718281828459045 (-15)))), 0) ∧
    (∃ sub, b.resolve "a" = (.ok (.nested sub), 0) ∧ sub.ns = some "a" ∧ sub.resolve "c" = (.ok (.value (.str "a")), 2)) ∧
    BEntry.toItems (some "a") 0 [("b", .value (.int 1)), ("c", .generator g)] =
      .ok [(.str "b", .int 1), (.str "c", .str "a")] :=
  ⟨rfl, rfl, rfl, ⟨_, rfl, rfl, rfl⟩, rfl⟩

end RE
