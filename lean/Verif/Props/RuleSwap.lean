import Verif.Props.RuleComp

/-!
# Replacing parts of a rule by others that give the same (C71)
-/

set_option linter.unusedSimpArgs false
set_option linter.unusedVariables false

namespace RE

/-! ### Specification -/

/-- The function types under which the two texts are called are the same. -/
def SameType (codec : LitCodec) (env : Env) (t u : List Char) : Prop :=
  ∀ e e', Part codec env env.decCtx t e → Part codec env env.decCtx u e' → e.rt = e'.rt

/-- If the rule and the arguments are constants, the rule gives a method. -/
def ConstMethod (codec : LitCodec) (env : Env) (thing : Value) (t : List Char) : Prop :=
  ∀ (e : Expr) (p : Proc), Part codec env env.decCtx t e → e.reduced = true →
    ∃ m self, (p.evaluate env e thing).1 = .ok (.method m self)

/-- The rule is not a constant. -/
def NotConst (codec : LitCodec) (env : Env) (t : List Char) : Prop :=
  ∀ e, Part codec env env.decCtx t e → e.reduced = false

/-- **Specification.** In the context, the second text is the first one with parts replaced by others that give the same
for the thing.  In the condition and the result of a comprehension the parts have to give the same for every value of
the variable.  `$re_groups` is not used. -/
inductive Swap (codec : LitCodec) (thing : Value) : Env → List Char → List Char → Prop
  | part {env : Env} {t u : List Char} (ht : NoGroups codec t) (hu : NoGroups codec u)
    (h : SameOn codec env thing t u) : Swap codec thing env t u
  | operator {env : Env} {a b a' b' : List Char} (k : Kind) (hk : k ∈ binaryKinds) (ha : Swap codec thing env a a')
    (hb : Swap codec thing env b b') :
    Swap codec thing env (par a ++ ' ' :: (spelling k ++ ' ' :: par b)) (par a' ++ ' ' :: (spelling k ++ ' ' :: par b'))
  | contains {env : Env} {a b a' b' : List Char} (ha : Swap codec thing env a a') (hb : Swap codec thing env b b') :
    Swap codec thing env (par a ++ " in ".toList ++ par b) (par a' ++ " in ".toList ++ par b')
  | item {env : Env} {a b a' b' : List Char} (ha : Swap codec thing env a a') (hb : Swap codec thing env b b') :
    Swap codec thing env (par a ++ ("[".toList ++ (b ++ [']']))) (par a' ++ ("[".toList ++ (b' ++ [']'])))
  | slice {env : Env} {a b c a' b' c' : List Char} (safe : Bool) (ha : Swap codec thing env a a')
    (hb : Swap codec thing env b b') (hc : Swap codec thing env c c') :
    Swap codec thing env (par a ++ ((if safe then "&[" else "[").toList ++ (b ++ (':' :: (c ++ [']'])))))
      (par a' ++ ((if safe then "&[" else "[").toList ++ (b' ++ (':' :: (c' ++ [']'])))))
  | negation {env : Env} {a a' : List Char} (ha : Swap codec thing env a a') :
    Swap codec thing env ("not ".toList ++ par a) ("not ".toList ++ par a')
  | minus {env : Env} {a a' : List Char} (ha : Swap codec thing env a a') :
    Swap codec thing env ('-' :: par a) ('-' :: par a')
  | conditional {env : Env} {a b c a' b' c' : List Char} (ha : Swap codec thing env a a')
    (hb : Swap codec thing env b b') (hc : Swap codec thing env c c') (hv : ConstGives codec env thing a)
    (hv' : ConstGives codec env thing a') :
    Swap codec thing env (par a ++ " ? ".toList ++ par b ++ " : ".toList ++ par c)
      (par a' ++ " ? ".toList ++ par b' ++ " : ".toList ++ par c')
  | array {env : Env} {ts us : List (List Char)} (hl : ts.length = us.length)
    (h : ∀ (i : Nat) t u, ts[i]? = some t → us[i]? = some u → Swap codec thing env t u) :
    Swap codec thing env ('[' :: (commas ts ++ [']'])) ('[' :: (commas us ++ [']']))
  | set {env : Env} {ts us : List (List Char)} (hne : ts ≠ []) (hl : ts.length = us.length)
    (h : ∀ (i : Nat) t u, ts[i]? = some t → us[i]? = some u → Swap codec thing env t u) :
    Swap codec thing env ('{' :: (commas ts ++ ['}'])) ('{' :: (commas us ++ ['}']))
  | mapping {env : Env} {ts us : List (List Char × List Char)} (hl : ts.length = us.length)
    (hk : ∀ (i : Nat) t u, ts[i]? = some t → us[i]? = some u → Swap codec thing env t.1 u.1)
    (hv : ∀ (i : Nat) t u, ts[i]? = some t → us[i]? = some u → Swap codec thing env t.2 u.2) :
    Swap codec thing env ('{' :: (commas (ts.map entry) ++ ['}'])) ('{' :: (commas (us.map entry) ++ ['}']))
  | attr {env : Env} {a a' n : List Char} (hn : IsWord n) (hd : n.head? ≠ some '$') (safe : Bool)
    (ha : Swap codec thing env a a') (hc : NotConst codec env a) (hc' : NotConst codec env a') :
    Swap codec thing env (par a ++ ((if safe then "&." else ".").toList ++ n))
      (par a' ++ ((if safe then "&." else ".").toList ++ n))
  | call {env : Env} {f f' : List Char} {ts us : List (List Char)} (hf : Swap codec thing env f f')
    (hl : ts.length = us.length)
    (h : ∀ (i : Nat) t u, ts[i]? = some t → us[i]? = some u → Swap codec thing env t u)
    (ht : SameType codec env f f') (hm : ConstMethod codec env thing f) (hm' : ConstMethod codec env thing f') :
    Swap codec thing env (par f ++ par (commas ts)) (par f' ++ par (commas us))
  | each {env : Env} {a r a' r' x : List Char} (hx : IsWord x) (ha : Swap codec thing env a a')
    (ht : SameType codec env a a')
    (hr : ∀ l T m, Part codec env env.decCtx a l → VarType l.rt T →
      Swap codec thing (env.bindVar (String.ofList x) T m) r r')
    (cr : Clear codec (String.ofList x) r) (cr' : Clear codec (String.ofList x) r') :
    Swap codec thing env ('[' :: (r ++ (" for ".toList ++ (x ++ (" in ".toList ++ (a ++ [']']))))))
      ('[' :: (r' ++ (" for ".toList ++ (x ++ (" in ".toList ++ (a' ++ [']']))))))
  | eachIf {env : Env} {a c r a' c' r' x : List Char} (hx : IsWord x) (ha : Swap codec thing env a a')
    (ht : SameType codec env a a')
    (hc : ∀ l T m, Part codec env env.decCtx a l → VarType l.rt T →
      Swap codec thing (env.bindVar (String.ofList x) T m) c c')
    (hr : ∀ l T m, Part codec env env.decCtx a l → VarType l.rt T →
      Swap codec thing (env.bindVar (String.ofList x) T m) r r')
    (cc : Clear codec (String.ofList x) c) (cc' : Clear codec (String.ofList x) c')
    (cr : Clear codec (String.ofList x) r) (cr' : Clear codec (String.ofList x) r') :
    Swap codec thing env
      ('[' :: (r ++ (" for ".toList ++ (x ++ (" in ".toList ++ (a ++ (" if ".toList ++ (c ++ [']']))))))))
      ('[' :: (r' ++ (" for ".toList ++ (x ++ (" in ".toList ++ (a' ++ (" if ".toList ++ (c' ++ [']']))))))))

/-! ### Uses of `$re_groups` -/

mutual
theorem uses_any {P : Bool → String → Prop} : ∀ (raw : Raw) (vars vars' : List String),
    (∀ u ∈ raw.uses vars, P u.dollar u.name) → ∀ u ∈ raw.uses vars', P u.dollar u.name
  | .lit _, _, _, _ | .floatLit _, _, _, _ | .datetimeLit _, _, _, _ | .timedeltaLit _, _, _, _ => by simp [Raw.uses]
  | .array xs, vars, vars', h => by
    simp only [Raw.uses] at h ⊢
    exact usesList_any xs vars vars' h
  | .set xs, vars, vars', h => by
    simp only [Raw.uses] at h ⊢
    exact usesList_any xs vars vars' h
  | .mapping kvs, vars, vars', h => by
    simp only [Raw.uses] at h ⊢
    exact usesPairs_any kvs vars vars' h
  | .bin _ l r, vars, vars', h => by
    simp only [Raw.uses, List.mem_append, or_imp, forall_and] at h ⊢
    exact ⟨uses_any l vars vars' h.1, uses_any r vars vars' h.2⟩
  | .comp r x it c, vars, vars', h => by
    simp only [Raw.uses, List.mem_append, or_imp, forall_and] at h ⊢
    exact ⟨uses_any it vars vars' h.1, uses_any c _ _ h.2.1, uses_any r _ _ h.2.2⟩
  | .contains l r, vars, vars', h => by
    simp only [Raw.uses, List.mem_append, or_imp, forall_and] at h ⊢
    exact ⟨uses_any l vars vars' h.1, uses_any r vars vars' h.2⟩
  | .getAttr o _ _, vars, vars', h => by
    simp only [Raw.uses] at h ⊢
    exact uses_any o vars vars' h
  | .getItem l r _, vars, vars', h => by
    simp only [Raw.uses, List.mem_append, or_imp, forall_and] at h ⊢
    exact ⟨uses_any l vars vars' h.1, uses_any r vars vars' h.2⟩
  | .getSlice c a b _, vars, vars', h => by
    simp only [Raw.uses, List.mem_append, or_imp, forall_and] at h ⊢
    exact ⟨uses_any c vars vars' h.1, uses_any a vars vars' h.2.1, uses_any b vars vars' h.2.2⟩
  | .sym n b, vars, vars', h => by
    simp only [Raw.uses, List.mem_singleton, forall_eq] at h ⊢
    exact h
  | .call f args, vars, vars', h => by
    simp only [Raw.uses, List.mem_append, or_imp, forall_and] at h ⊢
    exact ⟨uses_any f vars vars' h.1, usesList_any args vars vars' h.2⟩
  | .tern c a b, vars, vars', h => by
    simp only [Raw.uses, List.mem_append, or_imp, forall_and] at h ⊢
    exact ⟨uses_any c vars vars' h.1, uses_any a vars vars' h.2.1, uses_any b vars vars' h.2.2⟩
  | .not e, vars, vars', h => by
    simp only [Raw.uses] at h ⊢
    exact uses_any e vars vars' h
  | .neg e, vars, vars', h => by
    simp only [Raw.uses] at h ⊢
    exact uses_any e vars vars' h
theorem usesList_any {P : Bool → String → Prop} : ∀ (xs : List Raw) (vars vars' : List String),
    (∀ u ∈ Raw.usesList vars xs, P u.dollar u.name) → ∀ u ∈ Raw.usesList vars' xs, P u.dollar u.name
  | [], _, _, _ => by simp [Raw.usesList]
  | x :: xs, vars, vars', h => by
    simp only [Raw.usesList, List.mem_append, or_imp, forall_and] at h ⊢
    exact ⟨uses_any x vars vars' h.1, usesList_any xs vars vars' h.2⟩
theorem usesPairs_any {P : Bool → String → Prop} : ∀ (xs : List (Raw × Raw)) (vars vars' : List String),
    (∀ u ∈ Raw.usesPairs vars xs, P u.dollar u.name) → ∀ u ∈ Raw.usesPairs vars' xs, P u.dollar u.name
  | [], _, _, _ => by simp [Raw.usesPairs]
  | (k, v) :: xs, vars, vars', h => by
    simp only [Raw.usesPairs, List.mem_append, or_imp, forall_and] at h ⊢
    exact ⟨uses_any k vars vars' h.1, uses_any v vars vars' h.2.1, usesPairs_any xs vars vars' h.2.2⟩
end

theorem noGroups_set {codec : LitCodec} {ts : List (List Char)} (h : ∀ t ∈ ts, NoGroups codec t) (hne : ts ≠ []) :
    NoGroups codec ('{' :: (commas ts ++ ['}'])) := by
  obtain ⟨rs, h1, h2⟩ := noGroups_list h
  exact ⟨_, means_set h1 hne, by simpa only [Raw.uses] using h2⟩

theorem noGroups_pairs {codec : LitCodec} : ∀ {ts : List (List Char × List Char)},
    (∀ t ∈ ts, NoGroups codec t.1 ∧ NoGroups codec t.2) →
    ∃ rs, List.Forall₂ (fun (t : List Char × List Char) (r : Raw × Raw) => Means codec t.1 r.1 ∧ Means codec t.2 r.2) ts rs ∧
      ∀ u ∈ Raw.usesPairs [] rs, ¬ (u.dollar = true ∧ u.name = "re_groups")
  | [], _ => ⟨[], .nil, by simp [Raw.usesPairs]⟩
  | t :: ts, h => by
    obtain ⟨⟨k, hk, huk⟩, ⟨v, hv, huv⟩⟩ := h t (by simp)
    obtain ⟨rs, hrs, hus⟩ := noGroups_pairs (fun x hx => h x (List.mem_cons_of_mem t hx))
    refine ⟨(k, v) :: rs, .cons ⟨hk, hv⟩ hrs, ?_⟩
    simp only [Raw.usesPairs, List.mem_append, or_imp, forall_and]
    exact ⟨huk, huv, hus⟩

theorem noGroups_mapping {codec : LitCodec} {ts : List (List Char × List Char)}
    (h : ∀ t ∈ ts, NoGroups codec t.1 ∧ NoGroups codec t.2) : NoGroups codec ('{' :: (commas (ts.map entry) ++ ['}'])) := by
  obtain ⟨rs, h1, h2⟩ := noGroups_pairs h
  exact ⟨_, means_mapping h1, by simpa only [Raw.uses] using h2⟩

theorem noGroups_attr {codec : LitCodec} {a n : List Char} (ha : NoGroups codec a) (hn : IsWord n)
    (hd : n.head? ≠ some '$') (safe : Bool) : NoGroups codec (par a ++ ((if safe then "&." else ".").toList ++ n)) := by
  obtain ⟨ra, hma, hua⟩ := ha
  exact ⟨_, means_attr hma hn hd safe, by simpa only [Raw.uses] using hua⟩

theorem noGroups_call {codec : LitCodec} {f : List Char} {ts : List (List Char)} (hf : NoGroups codec f)
    (h : ∀ t ∈ ts, NoGroups codec t) : NoGroups codec (par f ++ par (commas ts)) := by
  obtain ⟨rf, hmf, huf⟩ := hf
  obtain ⟨rs, h1, h2⟩ := noGroups_list h
  refine ⟨_, means_call hmf h1, ?_⟩
  simp only [Raw.uses, List.mem_append, or_imp, forall_and]
  exact ⟨huf, h2⟩

theorem noGroups_each {codec : LitCodec} {a r x : List Char} (ha : NoGroups codec a) (hr : NoGroups codec r)
    (hx : IsWord x) : NoGroups codec ('[' :: (r ++ (" for ".toList ++ (x ++ (" in ".toList ++ (a ++ [']'])))))) := by
  obtain ⟨ra, hma, hua⟩ := ha
  obtain ⟨rr, hmr, hur⟩ := hr
  refine ⟨_, means_comp hmr hma hx, ?_⟩
  simp only [Raw.uses, List.mem_append, or_imp, forall_and]
  exact ⟨hua, by simp, uses_any (P := fun d n => ¬ (d = true ∧ n = "re_groups")) rr [] _ hur⟩

theorem noGroups_eachIf {codec : LitCodec} {a c r x : List Char} (ha : NoGroups codec a) (hc : NoGroups codec c)
    (hr : NoGroups codec r) (hx : IsWord x) :
    NoGroups codec ('[' :: (r ++ (" for ".toList ++ (x ++ (" in ".toList ++ (a ++ (" if ".toList ++ (c ++ [']'])))))))) := by
  obtain ⟨ra, hma, hua⟩ := ha
  obtain ⟨rc, hmc, huc⟩ := hc
  obtain ⟨rr, hmr, hur⟩ := hr
  refine ⟨_, means_comp_if hmr hma hmc hx, ?_⟩
  simp only [Raw.uses, List.mem_append, or_imp, forall_and]
  exact ⟨hua, uses_any (P := fun d n => ¬ (d = true ∧ n = "re_groups")) rc [] _ huc,
    uses_any (P := fun d n => ¬ (d = true ∧ n = "re_groups")) rr [] _ hur⟩

theorem all_left {α : Type} {ts us : List α} {P : α → Prop} (hl : ts.length = us.length)
    (h : ∀ (i : Nat) t u, ts[i]? = some t → us[i]? = some u → P t) : ∀ t ∈ ts, P t := by
  intro t ht
  obtain ⟨i, hi, rfl⟩ := List.mem_iff_getElem.1 ht
  exact h i _ _ (List.getElem?_eq_getElem hi) (List.getElem?_eq_getElem (hl ▸ hi))

theorem all_right {α : Type} {ts us : List α} {P : α → Prop} (hl : ts.length = us.length)
    (h : ∀ (i : Nat) t u, ts[i]? = some t → us[i]? = some u → P u) : ∀ u ∈ us, P u :=
  all_left hl.symm fun i t u h1 h2 => h i u t h2 h1

theorem nonempty_of_length {α : Type} {ts us : List α} (hne : ts ≠ []) (hl : ts.length = us.length) : us ≠ [] := by
  rintro rfl
  exact hne (List.length_eq_zero_iff.1 hl)

theorem Swap.noGroups {codec : LitCodec} {env : Env} {thing : Value} {t u : List Char}
    (h : Swap codec thing env t u) : NoGroups codec t ∧ NoGroups codec u := by
  induction h with
  | part ht hu h => exact ⟨ht, hu⟩
  | operator k hk ha hb iha ihb => exact ⟨noGroups_bin iha.1 ihb.1 k hk, noGroups_bin iha.2 ihb.2 k hk⟩
  | contains ha hb iha ihb => exact ⟨noGroups_in iha.1 ihb.1, noGroups_in iha.2 ihb.2⟩
  | item ha hb iha ihb => exact ⟨noGroups_item iha.1 ihb.1 false, noGroups_item iha.2 ihb.2 false⟩
  | slice safe ha hb hc iha ihb ihc =>
    exact ⟨noGroups_slice iha.1 ihb.1 ihc.1 safe, noGroups_slice iha.2 ihb.2 ihc.2 safe⟩
  | negation ha iha => exact ⟨noGroups_not iha.1, noGroups_not iha.2⟩
  | minus ha iha => exact ⟨noGroups_neg iha.1, noGroups_neg iha.2⟩
  | conditional ha hb hc hv hv' iha ihb ihc =>
    exact ⟨noGroups_tern iha.1 ihb.1 ihc.1, noGroups_tern iha.2 ihb.2 ihc.2⟩
  | array hl h ih =>
    exact ⟨noGroups_array (all_left hl fun i t u h1 h2 => (ih i t u h1 h2).1),
      noGroups_array (all_right hl fun i t u h1 h2 => (ih i t u h1 h2).2)⟩
  | set hne hl h ih =>
    exact ⟨noGroups_set (all_left hl fun i t u h1 h2 => (ih i t u h1 h2).1) hne,
      noGroups_set (all_right hl fun i t u h1 h2 => (ih i t u h1 h2).2) (nonempty_of_length hne hl)⟩
  | mapping hl hk hv ihk ihv =>
    exact ⟨noGroups_mapping (all_left hl fun i t u h1 h2 => ⟨(ihk i t u h1 h2).1, (ihv i t u h1 h2).1⟩),
      noGroups_mapping (all_right hl fun i t u h1 h2 => ⟨(ihk i t u h1 h2).2, (ihv i t u h1 h2).2⟩)⟩
  | attr hn hd safe ha hc hc' iha => exact ⟨noGroups_attr iha.1 hn hd safe, noGroups_attr iha.2 hn hd safe⟩
  | call hf hl h ht hm hm' ihf ih =>
    exact ⟨noGroups_call ihf.1 (all_left hl fun i t u h1 h2 => (ih i t u h1 h2).1),
      noGroups_call ihf.2 (all_right hl fun i t u h1 h2 => (ih i t u h1 h2).2)⟩
  | each hx ha ht hr cr cr' iha ihr =>
    exact ⟨noGroups_each iha.1 (clear_noGroups cr) hx, noGroups_each iha.2 (clear_noGroups cr') hx⟩
  | eachIf hx ha ht hc hr cc cc' cr cr' iha ihc ihr =>
    exact ⟨noGroups_eachIf iha.1 (clear_noGroups cc) (clear_noGroups cr) hx,
      noGroups_eachIf iha.2 (clear_noGroups cc') (clear_noGroups cr') hx⟩

/-! ### The parts of an accepted rule are accepted -/

theorem parts_set {env : Env} {dct : DecCtx} {rs : List Raw} {e : Expr} (h : Makes env dct (.set rs) e) :
    ∃ es, List.Forall₂ (Makes env dct) rs es := by
  obtain ⟨s, s', hs, h⟩ := h
  simp only [build, M.bind_eq_ok] at h
  obtain ⟨es, s1, h1, -⟩ := h
  exact ⟨es, parts_list hs h1⟩

theorem Part.split_set {codec : LitCodec} {env : Env} {dct : DecCtx} {ts : List (List Char)} {e : Expr}
    (ha : ∀ t ∈ ts, NoGroups codec t) (hne : ts ≠ []) (h : Part codec env dct ('{' :: (commas ts ++ ['}'])) e) :
    ∃ es, List.Forall₂ (Part codec env dct) ts es := by
  obtain ⟨rs, h1, h2⟩ := noGroups_list ha
  obtain ⟨es, h3⟩ := parts_set (h.makes (means_set h1 hne))
  exact ⟨es, forall₂_parts h1 h3⟩

theorem parts_pairs {codec : LitCodec} {env : Env} {dct : DecCtx} : ∀ {ts : List (List Char × List Char)}
    {rs : List (Raw × Raw)} {es : List (Expr × Expr)} {s s' : St}, s.scopes = [] →
    List.Forall₂ (fun (t : List Char × List Char) (r : Raw × Raw) => Means codec t.1 r.1 ∧ Means codec t.2 r.2) ts rs →
    buildPairs env dct rs s = (.ok es, s') → List.Forall₂ (PartPair codec env dct) ts es
  | _, _, es, s, s', hs, .nil, h => by
    simp only [buildPairs, M.pure_eq_ok] at h
    rw [← h.1]
    exact .nil
  | _, (k, v) :: rs, es, s, s', hs, .cons hm hms, h => by
    simp only [buildPairs, M.bind_eq_ok, M.pure_eq_ok] at h
    obtain ⟨ek, s1, h1, ev, s2, h2, es', s3, h3, rfl, -⟩ := h
    have hs1 := (build_scopes h1).trans hs
    exact .cons ⟨part_of_makes hm.1 ⟨s, s1, hs, h1⟩, part_of_makes hm.2 ⟨s1, s2, hs1, h2⟩⟩
      (parts_pairs ((build_scopes h2).trans hs1) hms h3)

theorem Part.split_mapping {codec : LitCodec} {env : Env} {dct : DecCtx} {ts : List (List Char × List Char)} {e : Expr}
    (ha : ∀ t ∈ ts, NoGroups codec t.1 ∧ NoGroups codec t.2)
    (h : Part codec env dct ('{' :: (commas (ts.map entry) ++ ['}'])) e) :
    ∃ es, List.Forall₂ (PartPair codec env dct) ts es := by
  obtain ⟨rs, h1, h2⟩ := noGroups_pairs ha
  obtain ⟨s, s', hs, h⟩ := h.makes (means_mapping h1)
  simp only [RE.build, M.bind_eq_ok] at h
  obtain ⟨es, s1, h3, -⟩ := h
  exact ⟨es, parts_pairs hs h1 h3⟩

theorem Part.split_attr {codec : LitCodec} {env : Env} {dct : DecCtx} {a n : List Char} {e : Expr} {safe : Bool}
    (ha : NoGroups codec a) (hn : IsWord n) (hd : n.head? ≠ some '$')
    (h : Part codec env dct (par a ++ ((if safe then "&." else ".").toList ++ n)) e) : ∃ l, Part codec env dct a l := by
  obtain ⟨ra, hma, -⟩ := ha
  obtain ⟨s, s', hs, h⟩ := h.makes (means_attr hma hn hd safe)
  simp only [RE.build, M.bind_eq_ok] at h
  obtain ⟨l, s1, h1, -⟩ := h
  exact ⟨l, part_of_makes hma ⟨s, s1, hs, h1⟩⟩

theorem Part.split_call {codec : LitCodec} {env : Env} {dct : DecCtx} {f : List Char} {ts : List (List Char)} {e : Expr}
    (hf : NoGroups codec f) (ha : ∀ t ∈ ts, NoGroups codec t) (h : Part codec env dct (par f ++ par (commas ts)) e) :
    ∃ l es, Part codec env dct f l ∧ List.Forall₂ (Part codec env dct) ts es := by
  obtain ⟨rf, hmf, -⟩ := hf
  obtain ⟨rs, h1, h2⟩ := noGroups_list ha
  obtain ⟨s, s', hs, h⟩ := h.makes (means_call hmf h1)
  simp only [RE.build, M.bind_eq_ok] at h
  obtain ⟨l, s1, h3, es, s2, h4, -⟩ := h
  exact ⟨l, es, part_of_makes hmf ⟨s, s1, hs, h3⟩, forall₂_parts h1 (parts_list ((build_scopes h3).trans hs) h4)⟩

theorem Part.split_eachIf {codec : LitCodec} {env : Env} {dct : DecCtx} {a c r x : List Char} {e : Expr}
    (hx : IsWord x) (ha : NoGroups codec a) (hc : Clear codec (String.ofList x) c) (hr : Clear codec (String.ofList x) r)
    (h : Part codec env dct
      ('[' :: (r ++ (" for ".toList ++ (x ++ (" in ".toList ++ (a ++ (" if ".toList ++ (c ++ [']'])))))))) e) :
    ∃ l T i j, Part codec env dct a l ∧ VarType l.rt T ∧
      Part codec (env.bindVar (String.ofList x) T .none) dct c j ∧
      Part codec (env.bindVar (String.ofList x) T .none) dct r i := by
  obtain ⟨ra, hma, -⟩ := ha
  obtain ⟨rc, hmc, -⟩ := id hc
  obtain ⟨rr, hmr, -⟩ := id hr
  obtain ⟨l, -, -, -, -, -, -, hl, -⟩ := makes_comp (h.makes (means_comp_if hmr hma hmc hx))
  have hpa := part_of_makes hma hl
  obtain ⟨acts, ho⟩ := h.outcome
  obtain ⟨h1, h2⟩ := comprehension_accepted hx hpa hc hr acts [] []
  by_cases hT : ∃ T, VarType l.rt T
  · obtain ⟨T, hT⟩ := hT
    have := (h1 T .none hT).symm.trans ho
    simp only [except_bind_ok, Except.ok.injEq] at this
    obtain ⟨j, hj, i, hi, -⟩ := this
    exact ⟨l, T, i, j, hpa, hT, ⟨⟨_, hmc⟩, [], hj⟩, ⟨⟨_, hmr⟩, [], hi⟩⟩
  · cases (h2 hT).symm.trans ho

theorem Part.split_each {codec : LitCodec} {env : Env} {dct : DecCtx} {a r x : List Char} {e : Expr}
    (hx : IsWord x) (ha : NoGroups codec a) (hr : Clear codec (String.ofList x) r)
    (h : Part codec env dct ('[' :: (r ++ (" for ".toList ++ (x ++ (" in ".toList ++ (a ++ [']'])))))) e) :
    ∃ l T i, Part codec env dct a l ∧ VarType l.rt T ∧ Part codec (env.bindVar (String.ofList x) T .none) dct r i := by
  obtain ⟨ra, hma, -⟩ := ha
  obtain ⟨rr, hmr, -⟩ := id hr
  obtain ⟨l, -, -, -, -, -, -, hl, -⟩ := makes_comp (h.makes (means_comp hmr hma hx))
  have hpa := part_of_makes hma hl
  obtain ⟨acts, ho⟩ := h.outcome
  obtain ⟨h1, h2⟩ := comprehension_accepted_plain hx hpa hr acts []
  by_cases hT : ∃ T, VarType l.rt T
  · obtain ⟨T, hT⟩ := hT
    have := (h1 T .none hT).symm.trans ho
    simp only [except_bind_ok, Except.ok.injEq] at this
    obtain ⟨i, hi, -⟩ := this
    exact ⟨l, T, i, hpa, hT, ⟨⟨_, hmr⟩, [], hi⟩⟩
  · cases (h2 hT).symm.trans ho

theorem varType_unique {t u u' : DataType} (h : VarType t u) (h' : VarType t u') : u = u' := by
  rw [varType_iff] at h h'
  rw [h] at h'
  exact Except.ok.inj h'

theorem pairs_map {codec : LitCodec} {env : Env} {dct : DecCtx} {α : Type} {f : Expr → α} :
    ∀ {ts us : List (List Char × List Char)} {es es' : List (Expr × Expr)},
    List.Forall₂ (PartPair codec env dct) ts es → List.Forall₂ (PartPair codec env dct) us es' →
    ts.length = us.length →
    (∀ (i : Nat) t u, ts[i]? = some t → us[i]? = some u →
      (∀ e e', Part codec env dct t.1 e → Part codec env dct u.1 e' → f e = f e') ∧
      (∀ e e', Part codec env dct t.2 e → Part codec env dct u.2 e' → f e = f e')) →
    (es.map fun e => (f e.1, f e.2)) = es'.map fun e => (f e.1, f e.2)
  | _, _, _, _, .nil, .nil, _, _ => rfl
  | _, _, _, _, .cons h hs, .cons h' hs', hl, hf => by
    simp only [List.map_cons]
    rw [(hf 0 _ _ rfl rfl).1 _ _ h.1 h'.1, (hf 0 _ _ rfl rfl).2 _ _ h.2 h'.2,
      pairs_map hs hs' (by simpa using hl) fun i t u h1 h2 => hf (i + 1) t u h1 h2]
  | _, _, _, _, .nil, .cons .., hl, _ => by simp at hl
  | _, _, _, _, .cons .., .nil, hl, _ => by simp at hl

/-- **C71.** Replacing parts of a rule, at any depth, by others that give the same for the thing: if both rules are
accepted, they give the same value or raise the same exception for that thing. -/
theorem swap_same {codec : LitCodec} {env : Env} {thing : Value} {t u : List Char}
    (h : Swap codec thing env t u) : SameOn codec env thing t u := by
  induction h with
  | part ht hu h => exact h
  | operator k hk ha hb iha ihb =>
    exact replace_parts (.operator k hk (.part ha.noGroups.1 ha.noGroups.2 iha) (.part hb.noGroups.1 hb.noGroups.2 ihb))
  | contains ha hb iha ihb =>
    exact replace_parts (.contains (.part ha.noGroups.1 ha.noGroups.2 iha) (.part hb.noGroups.1 hb.noGroups.2 ihb))
  | item ha hb iha ihb =>
    exact replace_parts (.item (.part ha.noGroups.1 ha.noGroups.2 iha) (.part hb.noGroups.1 hb.noGroups.2 ihb))
  | slice safe ha hb hc iha ihb ihc =>
    exact replace_parts (.slice safe (.part ha.noGroups.1 ha.noGroups.2 iha) (.part hb.noGroups.1 hb.noGroups.2 ihb)
      (.part hc.noGroups.1 hc.noGroups.2 ihc))
  | negation ha iha => exact replace_parts (.negation (.part ha.noGroups.1 ha.noGroups.2 iha))
  | minus ha iha => exact replace_parts (.minus (.part ha.noGroups.1 ha.noGroups.2 iha))
  | conditional ha hb hc hv hv' iha ihb ihc =>
    exact replace_parts (.conditional (.part ha.noGroups.1 ha.noGroups.2 iha) (.part hb.noGroups.1 hb.noGroups.2 ihb)
      (.part hc.noGroups.1 hc.noGroups.2 ihc) hv hv')
  | array hl h ih =>
    exact replace_parts (.array hl fun i t u h1 h2 =>
      .part (h i t u h1 h2).noGroups.1 (h i t u h1 h2).noGroups.2 (ih i t u h1 h2))
  | set hne hl h ih =>
    intro e e' p h1 h2
    have hg1 := all_left hl fun i t u h1 h2 => (h i t u h1 h2).noGroups.1
    have hg2 := all_right hl fun i t u h1 h2 => (h i t u h1 h2).noGroups.2
    obtain ⟨es, hes⟩ := h1.split_set hg1 hne
    obtain ⟨es', hes'⟩ := h2.split_set hg2 (nonempty_of_length hne hl)
    obtain ⟨acts, h1⟩ := h1.outcome
    obtain ⟨acts', h2⟩ := h2.outcome
    rw [set_of_rules hes hne hg1 acts h1, set_of_rules hes' (nonempty_of_length hne hl) hg2 acts' h2]
    rw [forall₂_map hes hes' hl fun i t u h1 h2 e e' he he' => ih i t u h1 h2 e e' p he he']
  | mapping hl hk hv ihk ihv =>
    intro e e' p h1 h2
    have hg1 := all_left hl fun i t u h1 h2 => And.intro (hk i t u h1 h2).noGroups.1 (hv i t u h1 h2).noGroups.1
    have hg2 := all_right hl fun i t u h1 h2 => And.intro (hk i t u h1 h2).noGroups.2 (hv i t u h1 h2).noGroups.2
    obtain ⟨es, hes⟩ := h1.split_mapping hg1
    obtain ⟨es', hes'⟩ := h2.split_mapping hg2
    obtain ⟨acts, h1⟩ := h1.outcome
    obtain ⟨acts', h2⟩ := h2.outcome
    rw [mapping_of_rules hes hg1 acts h1, mapping_of_rules hes' hg2 acts' h2]
    rw [pairs_map (f := fun e => (p.evaluate _ e thing).1) hes hes' hl fun i t u h1 h2 =>
      ⟨fun e e' he he' => ihk i t u h1 h2 e e' p he he', fun e e' he he' => ihv i t u h1 h2 e e' p he he'⟩]
  | attr hn hd safe ha hc hc' iha =>
    intro e e' p h1 h2
    obtain ⟨l, hl⟩ := h1.split_attr ha.noGroups.1 hn hd
    obtain ⟨l', hl'⟩ := h2.split_attr ha.noGroups.2 hn hd
    obtain ⟨acts, h1⟩ := h1.outcome
    obtain ⟨acts', h2⟩ := h2.outcome
    rw [attr_of_rule hl hn hd safe (hc l hl) acts h1, attr_of_rule hl' hn hd safe (hc' l' hl') acts' h2,
      iha _ _ p hl hl']
  | call hf hl h ht hm hm' ihf ih =>
    intro e e' p h1 h2
    have hg1 := all_left hl fun i t u h1 h2 => (h i t u h1 h2).noGroups.1
    have hg2 := all_right hl fun i t u h1 h2 => (h i t u h1 h2).noGroups.2
    obtain ⟨l, es, hl1, hes⟩ := h1.split_call hf.noGroups.1 hg1
    obtain ⟨l', es', hl1', hes'⟩ := h2.split_call hf.noGroups.2 hg2
    obtain ⟨acts, h1⟩ := h1.outcome
    obtain ⟨acts', h2⟩ := h2.outcome
    rw [call_of_rules hl1 hes hg1 acts h1 thing p (fun hr _ => hm l p hl1 hr),
      call_of_rules hl1' hes' hg2 acts' h2 thing p (fun hr _ => hm' l' p hl1' hr), ht l l' hl1 hl1', ihf _ _ p hl1 hl1']
    rw [forall₂_map hes hes' hl fun i t u h1 h2 e e' he he' => ih i t u h1 h2 e e' p he he']
  | each hx ha ht hr cr cr' iha ihr =>
    intro e e' p h1 h2
    obtain ⟨l, T, i, hl, hT, hi⟩ := h1.split_each hx ha.noGroups.1 cr
    obtain ⟨l', T', i', hl', hT', hi'⟩ := h2.split_each hx ha.noGroups.2 cr'
    have hTT : T = T' := varType_unique (ht l l' hl hl' ▸ hT) hT'
    subst hTT
    obtain ⟨acts, h1⟩ := h1.outcome
    obtain ⟨acts', h2⟩ := h2.outcome
    rw [comprehension_of_rules_plain hx hl hT hi cr acts h1, comprehension_of_rules_plain hx hl' hT' hi' cr' acts' h2,
      iha _ _ p hl hl']
    congr 1
    funext m
    exact ihr l T m hl hT _ _ p (part_any cr hi m) (part_any cr' hi' m)
  | eachIf hx ha ht hc hr cc cc' cr cr' iha ihc ihr =>
    intro e e' p h1 h2
    obtain ⟨l, T, i, j, hl, hT, hj, hi⟩ := h1.split_eachIf hx ha.noGroups.1 cc cr
    obtain ⟨l', T', i', j', hl', hT', hj', hi'⟩ := h2.split_eachIf hx ha.noGroups.2 cc' cr'
    have hTT : T = T' := varType_unique (ht l l' hl hl' ▸ hT) hT'
    subst hTT
    obtain ⟨acts, h1⟩ := h1.outcome
    obtain ⟨acts', h2⟩ := h2.outcome
    rw [comprehension_of_rules hx hl hT hj cc hi cr acts h1, comprehension_of_rules hx hl' hT' hj' cc' hi' cr' acts' h2,
      iha _ _ p hl hl']
    congr 1
    · funext m
      exact ihc l T m hl hT _ _ p (part_any cc hj m) (part_any cc' hj' m)
    · funext m
      exact ihr l T m hl hT _ _ p (part_any cr hi m) (part_any cr' hi' m)

/-- A case: `[x for x in y]` and `[(x) for x in z]`, for a thing that has the same array under both names. -/
example (codec : LitCodec) :
    Swap codec (dictOf [("y", .tuple [.int 1, .str "a"]), ("z", .tuple [.int 1, .str "a"])]) sampleEnv
      ('[' :: (['x'] ++ (" for ".toList ++ (['x'] ++ (" in ".toList ++ (['y'] ++ [']']))))))
      ('[' :: (par ['x'] ++ (" for ".toList ++ (['x'] ++ (" in ".toList ++ (['z'] ++ [']'])))))) := by
  have hx : Means codec ['x'] (.sym "x" false) := means_sym x_word
  have hy : Means codec ['y'] (.sym "y" false) := means_sym ⟨by decide, by decide⟩
  have hz : Means codec ['z'] (.sym "z" false) := means_sym ⟨by decide, by decide⟩
  have cx : Clear codec (String.ofList ['x']) ['x'] := ⟨_, hx, trivial, by decide, by simp [Raw.uses]⟩
  have cx' : Clear codec (String.ofList ['x']) (par ['x']) := ⟨_, means_par hx, trivial, by decide, by simp [Raw.uses]⟩
  refine .each x_word (.part ⟨_, hy, by simp [Raw.uses]⟩ ⟨_, hz, by simp [Raw.uses]⟩ ?_) ?_
    (fun l T m _ _ => .part (clear_noGroups cx) (clear_noGroups cx') ?_) cx cx'
  · intro e e' p he he'
    cases Part.unique he ⟨⟨_, hy⟩, [], (rule_of_means hy).trans rfl⟩
    cases Part.unique he' ⟨⟨_, hz⟩, [], (rule_of_means hz).trans rfl⟩
    simp only [Proc.evaluate, ruleEval, eval]
    rw [evalSymbol_free (by rfl), evalSymbol_free (by rfl)]
    decide +kernel
  · intro e e' he he'
    cases Part.unique he ⟨⟨_, hy⟩, [], (rule_of_means hy).trans rfl⟩
    cases Part.unique he' ⟨⟨_, hz⟩, [], (rule_of_means hz).trans rfl⟩
    rfl
  · intro e e' p he he'
    cases makes_unique (he.makes hx) (he'.makes (means_par hx))
    rfl

end RE
