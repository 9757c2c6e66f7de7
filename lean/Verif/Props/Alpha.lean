import Verif.Props.Closure
import Verif.Props.State
import Verif.Props.RuleText
import Verif.Props.Gradual
import Verif.Props.RuleLaws

/-!
# The names of comprehension variables do not matter (C84)

Two rules that differ only in the names of comprehension variables (`Raw.Alpha`): each name refers in both to the same
comprehension, or in both to no comprehension and is the same name.
-/

set_option linter.unusedSimpArgs false
set_option linter.unusedVariables false
set_option linter.unusedSectionVars false

namespace RE

/-- The names of the variables around a place in two rules, outermost first: `n` in one and `n'` in the other refer to the
same comprehension, or both to none and are the same name. -/
def SameVariable : List (String × String) → String → String → Prop
  | [], n, n' => n = n'
  | (x, x') :: rest, n, n' => (n = x ∧ n' = x') ∨ (n ≠ x ∧ n' ≠ x' ∧ SameVariable rest n n')

mutual
/-- The rules differ only in the names of variables, with the variables `Γ` around them; corresponding variables of
comprehensions satisfy `P`. -/
def Raw.Alpha (P : String → String → Prop) : List (String × String) → Raw → Raw → Prop
  | _, .lit v, r' => r' = .lit v
  | _, .floatLit s, r' => r' = .floatLit s
  | _, .datetimeLit s, r' => r' = .datetimeLit s
  | _, .timedeltaLit s, r' => r' = .timedeltaLit s
  | Γ, .array xs, r' => ∃ xs', r' = .array xs' ∧ Raw.AlphaList P Γ xs xs'
  | Γ, .set xs, r' => ∃ xs', r' = .set xs' ∧ Raw.AlphaList P Γ xs xs'
  | Γ, .mapping kvs, r' => ∃ kvs', r' = .mapping kvs' ∧ Raw.AlphaPairs P Γ kvs kvs'
  | Γ, .bin op a b, r' => ∃ a' b', r' = .bin op a' b' ∧ a.Alpha P Γ a' ∧ b.Alpha P Γ b'
  | Γ, .comp r x it c, r' => ∃ s x' it' c', r' = .comp s x' it' c' ∧ P x x' ∧ it.Alpha P Γ it' ∧
      r.Alpha P (Γ ++ [(x, x')]) s ∧ c.Alpha P (Γ ++ [(x, x')]) c'
  | Γ, .contains a b, r' => ∃ a' b', r' = .contains a' b' ∧ a.Alpha P Γ a' ∧ b.Alpha P Γ b'
  | Γ, .getAttr o n safe, r' => SameVariable Γ n n ∧ ∃ o', r' = .getAttr o' n safe ∧ o.Alpha P Γ o'
  | Γ, .getItem a b safe, r' => ∃ a' b', r' = .getItem a' b' safe ∧ a.Alpha P Γ a' ∧ b.Alpha P Γ b'
  | Γ, .getSlice a b c safe, r' => ∃ a' b' c', r' = .getSlice a' b' c' safe ∧ a.Alpha P Γ a' ∧ b.Alpha P Γ b' ∧
      c.Alpha P Γ c'
  | Γ, .sym n b, r' => ∃ n', r' = .sym n' b ∧ if b then n = n' else SameVariable Γ n n'
  | Γ, .call f args, r' => ∃ f' args', r' = .call f' args' ∧ f.Alpha P Γ f' ∧ Raw.AlphaList P Γ args args'
  | Γ, .tern a b c, r' => ∃ a' b' c', r' = .tern a' b' c' ∧ a.Alpha P Γ a' ∧ b.Alpha P Γ b' ∧ c.Alpha P Γ c'
  | Γ, .not a, r' => ∃ a', r' = .not a' ∧ a.Alpha P Γ a'
  | Γ, .neg a, r' => ∃ a', r' = .neg a' ∧ a.Alpha P Γ a'
/-- members -/
def Raw.AlphaList (P : String → String → Prop) : List (String × String) → List Raw → List Raw → Prop
  | _, [], l' => l' = []
  | Γ, x :: xs, l' => ∃ x' xs', l' = x' :: xs' ∧ x.Alpha P Γ x' ∧ Raw.AlphaList P Γ xs xs'
/-- items -/
def Raw.AlphaPairs (P : String → String → Prop) : List (String × String) → List (Raw × Raw) → List (Raw × Raw) → Prop
  | _, [], l' => l' = []
  | Γ, (k, v) :: xs, l' => ∃ k' v' xs', l' = (k', v') :: xs' ∧ k.Alpha P Γ k' ∧ v.Alpha P Γ v' ∧ Raw.AlphaPairs P Γ xs xs'
end

mutual
/-- the same for what rules are built into -/
def Expr.Alpha (P : String → String → Prop) : List (String × String) → Expr → Expr → Prop
  | _, .lit v t, r' => r' = .lit v t
  | Γ, .array xs, r' => ∃ xs', r' = .array xs' ∧ Expr.AlphaList P Γ xs xs'
  | Γ, .set xs, r' => ∃ xs', r' = .set xs' ∧ Expr.AlphaList P Γ xs xs'
  | Γ, .mapping kvs, r' => ∃ kvs', r' = .mapping kvs' ∧ Expr.AlphaPairs P Γ kvs kvs'
  | Γ, .bin op a b, r' => ∃ a' b', r' = .bin op a' b' ∧ a.Alpha P Γ a' ∧ b.Alpha P Γ b'
  | Γ, .comp r x it c, r' => ∃ s x' it' c', r' = .comp s x' it' c' ∧ P x x' ∧ it.Alpha P Γ it' ∧
      r.Alpha P (Γ ++ [(x, x')]) s ∧ c.Alpha P (Γ ++ [(x, x')]) c'
  | Γ, .contains a b, r' => ∃ a' b', r' = .contains a' b' ∧ a.Alpha P Γ a' ∧ b.Alpha P Γ b'
  | Γ, .getAttr o n safe, r' => SameVariable Γ n n ∧ ∃ o', r' = .getAttr o' n safe ∧ o.Alpha P Γ o'
  | Γ, .getItem a b safe, r' => ∃ a' b', r' = .getItem a' b' safe ∧ a.Alpha P Γ a' ∧ b.Alpha P Γ b'
  | Γ, .getSlice a b c safe, r' => ∃ a' b' c', r' = .getSlice a' b' c' safe ∧ a.Alpha P Γ a' ∧ b.Alpha P Γ b' ∧
      c.Alpha P Γ c'
  | Γ, .sym n t b, r' => ∃ n', r' = .sym n' t b ∧ if b then n = n' else SameVariable Γ n n'
  | Γ, .call f args, r' => ∃ f' args', r' = .call f' args' ∧ f.Alpha P Γ f' ∧ Expr.AlphaList P Γ args args'
  | Γ, .tern a b c, r' => ∃ a' b' c', r' = .tern a' b' c' ∧ a.Alpha P Γ a' ∧ b.Alpha P Γ b' ∧ c.Alpha P Γ c'
  | Γ, .not a, r' => ∃ a', r' = .not a' ∧ a.Alpha P Γ a'
  | Γ, .neg a, r' => ∃ a', r' = .neg a' ∧ a.Alpha P Γ a'
/-- members -/
def Expr.AlphaList (P : String → String → Prop) : List (String × String) → List Expr → List Expr → Prop
  | _, [], l' => l' = []
  | Γ, x :: xs, l' => ∃ x' xs', l' = x' :: xs' ∧ x.Alpha P Γ x' ∧ Expr.AlphaList P Γ xs xs'
/-- items -/
def Expr.AlphaPairs (P : String → String → Prop) : List (String × String) → List (Expr × Expr) → List (Expr × Expr) → Prop
  | _, [], l' => l' = []
  | Γ, (k, v) :: xs, l' => ∃ k' v' xs', l' = (k', v') :: xs' ∧ k.Alpha P Γ k' ∧ v.Alpha P Γ v' ∧ Expr.AlphaPairs P Γ xs xs'
end

/-- the same exception, or a SymbolTypeError for a variable and one for the corresponding variable -/
inductive SameError (P : String → String → Prop) : Err → Err → Prop
  | same (e : Err) : SameError P e e
  | named {n n' : String} (h : P n n') : SameError P (.eng (.symbolType n)) (.eng (.symbolType n'))

/-- both return related results, or both raise the same exception (up to names of variables) -/
inductive AlikeOutcome (P : String → String → Prop) {α β : Type} (Q : α → β → Prop) : Except Err α → Except Err β → Prop
  | ok {a : α} {b : β} (h : Q a b) : AlikeOutcome P Q (.ok a) (.ok b)
  | error {e e' : Err} (h : SameError P e e') : AlikeOutcome P Q (.error e) (.error e')

/-- the same thread up to the names of variables and the names recorded as symbols -/
structure Linked (P : String → String → Prop) (Γ : List (String × String)) (s s' : St) : Prop where
  groups : s'.groups = s.groups
  log : s'.log = s.log
  scopes : ∃ L : List (String × String × Value × DataType), s.scopes = L.map (fun p => ⟨p.1, p.2.2.1, p.2.2.2⟩) ∧
    s'.scopes = L.map (fun p => ⟨p.2.1, p.2.2.1, p.2.2.2⟩) ∧ Γ = L.map (fun p => (p.1, p.2.1))
  names : ∀ p ∈ Γ, P p.1 p.2

section
variable {P : String → String → Prop}

mutual
theorem alpha_rt : ∀ {e : Expr} {Γ : List (String × String)} {e' : Expr}, e.Alpha P Γ e' → e'.rt = e.rt
  | .lit v t, Γ, e', h => by obtain rfl : e' = _ := h; rfl
  | .array xs, Γ, e', h => by obtain ⟨xs', rfl, h⟩ := h; simp only [Expr.rt, alpha_rts h]
  | .set xs, Γ, e', h => by obtain ⟨xs', rfl, h⟩ := h; simp only [Expr.rt, alpha_rts h]
  | .mapping kvs, Γ, e', h => by
    obtain ⟨xs', rfl, h⟩ := h; simp only [Expr.rt, (alpha_prts h).1, (alpha_prts h).2]
  | .bin op a b, Γ, e', h => by obtain ⟨a', b', rfl, ha, hb⟩ := h; simp only [Expr.rt, alpha_rt ha, alpha_rt hb]
  | .comp r x it c, Γ, e', h => by obtain ⟨s, x', it', c', rfl, -, -, hr, -⟩ := h; simp only [Expr.rt, alpha_rt hr]
  | .contains a b, Γ, e', h => by obtain ⟨a', b', rfl, ha, hb⟩ := h; rfl
  | .getAttr o n s, Γ, e', h => by obtain ⟨-, o', rfl, ho⟩ := h; simp only [Expr.rt, alpha_rt ho]
  | .getItem a b s, Γ, e', h => by obtain ⟨a', b', rfl, ha, hb⟩ := h; simp only [Expr.rt, alpha_rt ha]
  | .getSlice a b c s, Γ, e', h => by obtain ⟨a', b', c', rfl, ha, hb, hc⟩ := h; simp only [Expr.rt, alpha_rt ha]
  | .sym n t b, Γ, e', h => by obtain ⟨n', rfl, -⟩ := h; rfl
  | .call f args, Γ, e', h => by obtain ⟨f', as', rfl, hf, ha⟩ := h; simp only [Expr.rt, alpha_rt hf]
  | .tern a b c, Γ, e', h => by obtain ⟨a', b', c', rfl, ha, hb, hc⟩ := h; simp only [Expr.rt, alpha_rt hb, alpha_rt hc]
  | .not a, Γ, e', h => by obtain ⟨a', rfl, ha⟩ := h; rfl
  | .neg a, Γ, e', h => by obtain ⟨a', rfl, ha⟩ := h; simp only [Expr.rt, alpha_rt ha]
theorem alpha_rts : ∀ {es : List Expr} {Γ : List (String × String)} {es' : List Expr}, Expr.AlphaList P Γ es es' →
    Expr.rts es' = Expr.rts es
  | [], Γ, es', h => by obtain rfl : es' = _ := h; rfl
  | e :: es, Γ, es', h => by obtain ⟨x, xs, rfl, hx, hxs⟩ := h; simp only [Expr.rts, alpha_rt hx, alpha_rts hxs]
theorem alpha_prts : ∀ {es : List (Expr × Expr)} {Γ : List (String × String)} {es' : List (Expr × Expr)},
    Expr.AlphaPairs P Γ es es' → Expr.keyRts es' = Expr.keyRts es ∧ Expr.valRts es' = Expr.valRts es
  | [], Γ, es', h => by obtain rfl : es' = _ := h; exact ⟨rfl, rfl⟩
  | (k, v) :: es, Γ, es', h => by
    obtain ⟨k', v', xs, rfl, hk, hv, hxs⟩ := h
    simp only [Expr.keyRts, Expr.valRts, alpha_rt hk, alpha_rt hv, (alpha_prts hxs).1, (alpha_prts hxs).2, and_self]
end

mutual
theorem alpha_reduced : ∀ {e : Expr} {Γ : List (String × String)} {e' : Expr}, e.Alpha P Γ e' → e'.reduced = e.reduced
  | .lit v t, Γ, e', h => by obtain rfl : e' = _ := h; rfl
  | .array xs, Γ, e', h => by obtain ⟨xs', rfl, h⟩ := h; simp only [Expr.reduced, alpha_reducedList h]
  | .set xs, Γ, e', h => by obtain ⟨xs', rfl, h⟩ := h; simp only [Expr.reduced, alpha_reducedList h]
  | .mapping kvs, Γ, e', h => by obtain ⟨xs', rfl, h⟩ := h; simp only [Expr.reduced, alpha_reducedPairs h]
  | .bin op a b, Γ, e', h => by obtain ⟨a', b', rfl, ha, hb⟩ := h; rfl
  | .comp r x it c, Γ, e', h => by obtain ⟨s, x', it', c', rfl, -, -, hr, -⟩ := h; rfl
  | .contains a b, Γ, e', h => by obtain ⟨a', b', rfl, ha, hb⟩ := h; rfl
  | .getAttr o n s, Γ, e', h => by obtain ⟨-, o', rfl, ho⟩ := h; rfl
  | .getItem a b s, Γ, e', h => by obtain ⟨a', b', rfl, ha, hb⟩ := h; rfl
  | .getSlice a b c s, Γ, e', h => by obtain ⟨a', b', c', rfl, ha, hb, hc⟩ := h; rfl
  | .sym n t b, Γ, e', h => by obtain ⟨n', rfl, -⟩ := h; rfl
  | .call f args, Γ, e', h => by obtain ⟨f', as', rfl, hf, ha⟩ := h; rfl
  | .tern a b c, Γ, e', h => by obtain ⟨a', b', c', rfl, ha, hb, hc⟩ := h; rfl
  | .not a, Γ, e', h => by obtain ⟨a', rfl, ha⟩ := h; rfl
  | .neg a, Γ, e', h => by obtain ⟨a', rfl, ha⟩ := h; rfl
theorem alpha_reducedList : ∀ {es : List Expr} {Γ : List (String × String)} {es' : List Expr}, Expr.AlphaList P Γ es es' →
    Expr.reducedList es' = Expr.reducedList es
  | [], Γ, es', h => by obtain rfl : es' = _ := h; rfl
  | e :: es, Γ, es', h => by
    obtain ⟨x, xs, rfl, hx, hxs⟩ := h; simp only [Expr.reducedList, alpha_reduced hx, alpha_reducedList hxs]
theorem alpha_reducedPairs : ∀ {es : List (Expr × Expr)} {Γ : List (String × String)} {es' : List (Expr × Expr)},
    Expr.AlphaPairs P Γ es es' → Expr.reducedPairs es' = Expr.reducedPairs es
  | [], Γ, es', h => by obtain rfl : es' = _ := h; rfl
  | (k, v) :: es, Γ, es', h => by
    obtain ⟨k', v', xs, rfl, hk, hv, hxs⟩ := h
    simp only [Expr.reducedPairs, alpha_reduced hk, alpha_reduced hv, alpha_reducedPairs hxs]
end

mutual
/-- constants contain no names -/
theorem reduced_alpha : ∀ {e : Expr} {Γ : List (String × String)}, e.reduced = true → e.Alpha P Γ e
  | .lit v t, Γ, _ => rfl
  | .array xs, Γ, h => ⟨xs, rfl, reduced_alphaList h⟩
  | .set xs, Γ, h => ⟨xs, rfl, reduced_alphaList h⟩
  | .mapping kvs, Γ, h => ⟨kvs, rfl, reduced_alphaPairs h⟩
  | .bin .., _, h | .comp .., _, h | .contains .., _, h | .getAttr .., _, h | .getItem .., _, h | .getSlice .., _, h
  | .sym .., _, h | .call .., _, h | .tern .., _, h | .not .., _, h | .neg .., _, h => by simp [Expr.reduced] at h
theorem reduced_alphaList : ∀ {es : List Expr} {Γ : List (String × String)}, Expr.reducedList es = true →
    Expr.AlphaList P Γ es es
  | [], _, _ => rfl
  | e :: es, Γ, h => by
    simp only [Expr.reducedList, Bool.and_eq_true] at h
    exact ⟨e, es, rfl, reduced_alpha h.1, reduced_alphaList h.2⟩
theorem reduced_alphaPairs : ∀ {es : List (Expr × Expr)} {Γ : List (String × String)}, Expr.reducedPairs es = true →
    Expr.AlphaPairs P Γ es es
  | [], _, _ => rfl
  | (k, v) :: es, Γ, h => by
    simp only [Expr.reducedPairs, Bool.and_eq_true] at h
    exact ⟨k, v, es, rfl, reduced_alpha h.1.1, reduced_alpha h.1.2, reduced_alphaPairs h.2⟩
end

/-! ### Computations -/

/-- In linked threads both computations give related results or the same exception, and leave the threads linked. -/
structure Twin (P : String → String → Prop) (Γ : List (String × String)) {α β : Type} (Q : α → β → Prop) (m : M α) (m' : M β) :
    Prop where
  out : ∀ s s', Linked P Γ s s' → AlikeOutcome P Q (m s).1 (m' s').1 ∧ Linked P Γ (m s).2 (m' s').2

section
variable {Γ : List (String × String)} {α β α' β' : Type} {Q : α → β → Prop} {Q' : α' → β' → Prop}

theorem Twin.lift {x : Except Err α} {x' : Except Err β} (h : AlikeOutcome P Q x x') : Twin P Γ Q (M.lift x) (M.lift x') :=
  ⟨fun s s' hs => ⟨h, hs⟩⟩
theorem Twin.pure {a : α} {b : β} (h : Q a b) : Twin P Γ Q (Pure.pure a : M α) (Pure.pure b) := .lift (.ok h)
theorem Twin.throw {e : Err} : Twin P Γ Q (M.throw e : M α) (M.throw e) := .lift (.error (.same e))
theorem Twin.bind {m : M α} {m' : M β} {f : α → M α'} {f' : β → M β'} (hm : Twin P Γ Q m m')
    (hf : ∀ a b, Q a b → Twin P Γ Q' (f a) (f' b)) : Twin P Γ Q' (m >>= f) (m' >>= f') := by
  refine ⟨fun s s' hs => ?_⟩
  obtain ⟨h1, h2⟩ := hm.out s s' hs
  rw [M.bind_apply, M.bind_apply]
  rcases hx : m s with ⟨x, s1⟩
  rcases hx' : m' s' with ⟨x', s1'⟩
  rw [hx, hx'] at h1 h2
  cases h1 with
  | ok h => exact (hf _ _ h).out s1 s1' h2
  | error h => exact ⟨.error h, h2⟩
theorem Twin.ite {c : Prop} [Decidable c] {x y : M α} {x' y' : M β} (hx : Twin P Γ Q x x') (hy : Twin P Γ Q y y') :
    Twin P Γ Q (if c then x else y) (if c then x' else y') := by split <;> assumption

theorem Twin.withScope {x x' : String} {v : Value} {t : DataType} {m : M α} {m' : M β} (hp : P x x')
    (h : Twin P (Γ ++ [(x, x')]) Q m m') : Twin P Γ Q (M.withScope ⟨x, v, t⟩ m) (M.withScope ⟨x', v, t⟩ m') := by
  refine ⟨fun s s' hs => ?_⟩
  obtain ⟨L, h1, h2, h3⟩ := hs.scopes
  have hs1 : Linked P (Γ ++ [(x, x')]) { s with scopes := s.scopes ++ [⟨x, v, t⟩] }
      { s' with scopes := s'.scopes ++ [⟨x', v, t⟩] } :=
    ⟨hs.groups, hs.log, ⟨L ++ [(x, x', v, t)], by simp [h1], by simp [h2], by simp [h3]⟩, by
      intro p hm
      rcases List.mem_append.1 hm with hm | hm
      · exact hs.names p hm
      · rw [List.mem_singleton] at hm; subst hm; exact hp⟩
  obtain ⟨g1, g2⟩ := h.out _ _ hs1
  refine ⟨g1, ⟨g2.groups, g2.log, ?_, hs.names⟩⟩
  obtain ⟨L', k1, k2, k3⟩ := g2.scopes
  refine ⟨L'.dropLast, ?_, ?_, ?_⟩
  · simp only [M.withScope, k1, List.map_dropLast]
  · simp only [M.withScope, k2, List.map_dropLast]
  · rw [List.map_dropLast, ← k3]; simp
end

theorem twin_base (Γ : List (String × String)) : RelBase (fun {α} (m m' : M α) => Twin P Γ (fun a b => b = a) m m') where
  lift := by
    intro α x
    refine .lift ?_
    cases x
    · exact .error (.same _)
    · exact .ok rfl
  bind hm hf := hm.bind fun a b h => (by rw [h]; exact hf a)
  setGroups g hg := ⟨fun s s' hs => ⟨.ok rfl, ⟨rfl, by simp [recordMatch, M.modify, hs.log], hs.scopes, hs.names⟩⟩⟩
  logCall f args α x := ⟨fun s s' hs => ⟨by cases x <;> [exact .error (.same _); exact .ok rfl],
    ⟨hs.groups, by simp [hs.log], hs.scopes, hs.names⟩⟩⟩
  rethrow := by
    intro α e m m' hm
    refine ⟨fun s s' hs => ?_⟩
    obtain ⟨h1, h2⟩ := hm.out s s' hs
    unfold M.catchErr
    rcases hx : m s with ⟨x, s1⟩
    rcases hx' : m' s' with ⟨x', s1'⟩
    rw [hx, hx'] at h1 h2
    cases h1 with
    | ok h => exact ⟨.ok h, h2⟩
    | error h => exact ⟨.error (.same _), h2⟩

/-! ### Names -/

theorem lookup_linked {n n' : String} : ∀ {L : List (String × String × Value × DataType)},
    SameVariable (L.map fun p => (p.1, p.2.1)) n n' →
    (scopeLookup (L.map fun p => ⟨p.1, p.2.2.1, p.2.2.2⟩) n = none ∧
      scopeLookup (L.map fun p => ⟨p.2.1, p.2.2.1, p.2.2.2⟩) n' = none ∧ n = n') ∨
    ((n, n') ∈ L.map (fun p => (p.1, p.2.1)) ∧ ∃ v t, scopeLookup (L.map fun p => ⟨p.1, p.2.2.1, p.2.2.2⟩) n = some ⟨n, v, t⟩ ∧
      scopeLookup (L.map fun p => ⟨p.2.1, p.2.2.1, p.2.2.2⟩) n' = some ⟨n', v, t⟩)
  | [], h => .inl ⟨rfl, rfl, h⟩
  | (x, x', v, t) :: L, h => by
    rcases h with ⟨h1, h2⟩ | ⟨h1, h2, h3⟩
    · right
      subst h1; subst h2
      exact ⟨by simp, v, t, by simp [scopeLookup], by simp [scopeLookup]⟩
    · have e1 : (x == n) = false := by simpa using fun h => h1 h.symm
      have e2 : (x' == n') = false := by simpa using fun h => h2 h.symm
      rcases lookup_linked h3 with ⟨k1, k2, k3⟩ | ⟨km, v', t', k1, k2⟩
      · exact .inl ⟨by simpa [scopeLookup, e1] using k1, by simpa [scopeLookup, e2] using k2, k3⟩
      · exact .inr ⟨by rw [List.map_cons]; exact List.mem_cons_of_mem _ km, v', t',
          by simpa [scopeLookup, e1] using k1, by simpa [scopeLookup, e2] using k2⟩

theorem sameVariable_names {Γ : List (String × String)} {n n' : String} (h : SameVariable Γ n n') : n = n' ∨ (n, n') ∈ Γ := by
  induction Γ with
  | nil => exact .inl h
  | cons p Γ ih =>
    obtain ⟨x, x'⟩ := p
    rcases h with ⟨h1, h2⟩ | ⟨-, -, h3⟩
    · exact .inr (by simp [h1, h2])
    · exact (ih h3).imp id (List.mem_cons_of_mem _)

theorem Twin.catchErr {Γ : List (String × String)} {α β : Type} {Q : α → β → Prop} {m : M α} {m' : M β} {f : Err → M α} {f' : Err → M β}
    (hm : Twin P Γ Q m m') (hf : ∀ e e', SameError P e e' → Twin P Γ Q (f e) (f' e')) :
    Twin P Γ Q (M.catchErr m f) (M.catchErr m' f') := by
  refine ⟨fun s s' hs => ?_⟩
  obtain ⟨h1, h2⟩ := hm.out s s' hs
  unfold M.catchErr
  rcases hx : m s with ⟨x, s1⟩
  rcases hx' : m' s' with ⟨x', s1'⟩
  rw [hx, hx'] at h1 h2
  cases h1 with
  | ok h => exact ⟨.ok h, h2⟩
  | error h => exact (hf _ _ h).out _ _ h2

theorem alike_refl {α : Type} (x : Except Err α) : AlikeOutcome P (fun a b => b = a) x x := by
  cases x
  · exact .error (.same _)
  · exact .ok rfl

theorem Twin.same {Γ : List (String × String)} {α : Type} (x : Except Err α) :
    Twin P Γ (fun a b => b = a) (M.lift x) (M.lift x) := .lift (alike_refl x)

theorem ctxResolve_twin (env : Env) (thing : Value) {Γ : List (String × String)} {n n' : String} {b : Bool}
    (h : if b then n = n' else SameVariable Γ n n') :
    Twin P Γ (fun a b => b = a) (ctxResolve env thing n b) (ctxResolve env thing n' b) := by
  refine ⟨fun s s' hs => ?_⟩
  cases b with
  | true =>
    simp only [if_true] at h
    subst h
    simp only [ctxResolve, if_true, hs.groups]
    cases builtinValue env s.groups n
    · exact ⟨.error (.same _), hs⟩
    · exact ⟨.ok rfl, hs⟩
  | false =>
    simp only [Bool.false_eq_true, if_false] at h
    obtain ⟨L, h1, h2, h3⟩ := hs.scopes
    simp only [ctxResolve, Bool.false_eq_true, if_false]
    rw [h3] at h
    rcases lookup_linked h with ⟨k1, k2, rfl⟩ | ⟨-, v, t, k1, k2⟩
    · rw [h1, h2, k1, k2]
      exact ⟨alike_refl _, ⟨hs.groups, by simp [hs.log], ⟨L, rfl, rfl, h3⟩, hs.names⟩⟩
    · rw [h1, h2, k1, k2]
      exact ⟨.ok rfl, hs⟩

theorem checkSymbol_alike {n n' : String} (h : n = n' ∨ P n n') (t : DataType) (v : Value) :
    AlikeOutcome P (fun a b => b = a) (checkSymbol n t v) (checkSymbol n' t v) := by
  rcases h with rfl | h
  · exact alike_refl _
  unfold checkSymbol
  split
  · exact .ok rfl
  · rcases fromValue v with e | vt
    · exact .error (.same _)
    · simp only [except_ok_bind]
      repeat' split
      all_goals first | exact .ok rfl | exact .error (.named h)

theorem evalSymbol_twin (env : Env) (thing : Value) (t : DataType) {Γ : List (String × String)} {n n' : String} {b : Bool}
    (h : if b then n = n' else SameVariable Γ n n') :
    Twin P Γ (fun a b => b = a) (evalSymbol env thing n t b) (evalSymbol env thing n' t b) := by
  refine ⟨fun s s' hs => ?_⟩
  have hn : n = n' ∨ P n n' := by
    cases b with
    | true => exact .inl (by simpa using h)
    | false =>
      simp only [Bool.false_eq_true, if_false] at h
      exact (sameVariable_names h).imp id (fun h => hs.names _ h)
  refine Twin.out (Twin.bind (Twin.catchErr (ctxResolve_twin env thing h) ?_) ?_) s s' hs
  · intro e e' he
    cases he with
    | same e => split <;> first | exact .pure rfl | exact .throw
    | named h => exact .lift (.error (.named h))
  · intro a b hb
    rw [hb]
    exact .lift (checkSymbol_alike hn t _)

theorem evalGetAttr_twin (env : Env) (o : Value) {Γ : List (String × String)} {n : String} (h : SameVariable Γ n n) :
    Twin P Γ (fun a b => b = a) (evalGetAttr env o n) (evalGetAttr env o n) := by
  refine ⟨fun s s' hs => ?_⟩
  unfold evalGetAttr
  split
  · exact ⟨.ok rfl, hs⟩
  · split
    · obtain ⟨k1, k2⟩ := (ctxResolve_twin (P := P) env o (b := false) (by simpa using h)).out s s' hs
      rcases hx : ctxResolve env o n false s with ⟨x, s1⟩
      rcases hx' : ctxResolve env o n false s' with ⟨x', s1'⟩
      rw [hx, hx'] at k1 k2
      cases k1 with
      | ok h => exact ⟨.ok (by rw [h]), k2⟩
      | error h =>
        cases h with
        | same e =>
          simp only
          split
          · split
            · exact ⟨.ok rfl, k2⟩
            · exact ⟨.error (.same _), k2⟩
          · exact ⟨.error (.same _), k2⟩
        | named h => exact ⟨.error (.named h), k2⟩
    · exact ⟨.error (.same _), hs⟩

/-! ### Evaluation -/

theorem compM_twin {Γ : List (String × String)} {x x' : String} (hp : P x x') {c c' r r' : M Value}
    (hc : Twin P (Γ ++ [(x, x')]) (fun a b => b = a) c c') (hr : Twin P (Γ ++ [(x, x')]) (fun a b => b = a) r r')
    (xs : List Value) : Twin P Γ (fun a b => b = a) (compM x c r xs) (compM x' c' r' xs) := by
  induction xs with
  | nil => exact .pure rfl
  | cons v xs ih =>
    have hR := twin_base (P := P) (Γ ++ [(x, x')])
    refine (twin_base Γ).bind (Twin.withScope hp ?_) fun o => (twin_base Γ).bind ih fun vs => (twin_base Γ).pure _
    exact hR.bind hc fun a => hR.ite (fun _ => hR.bind hr fun v => hR.pure _) (fun _ => hR.pure _)

section
variable (env : Env) (dc : DecCtx) (thing : Value)

mutual
theorem eval_twin : ∀ {e : Expr} {Γ : List (String × String)} {e' : Expr}, e.Alpha P Γ e' →
    Twin P Γ (fun a b => b = a) (eval env dc thing e) (eval env dc thing e')
  | .lit v t, Γ, e', h => by rw [show e' = _ from h]; simp only [eval]; exact .pure rfl
  | .array xs, Γ, e', h => by
    obtain ⟨xs', rfl, h⟩ := h
    simp only [eval]
    exact (twin_base Γ).bind (seqM_rel (twin_base Γ) (evals_twin h)) fun _ => .pure rfl
  | .set xs, Γ, e', h => by
    obtain ⟨xs', rfl, h⟩ := h
    simp only [eval]
    exact (twin_base Γ).bind (setM_rel (twin_base Γ) _ (evals_twin h) []) fun _ => .pure rfl
  | .mapping kvs, Γ, e', h => by
    obtain ⟨xs', rfl, h⟩ := h
    simp only [eval]
    rw [← bind_assoc, ← bind_assoc]
    exact (twin_base Γ).bind (mapM_rel (twin_base Γ) _ (evalPairs_twin h) .nil) fun _ => .pure rfl
  | .bin op a b, Γ, e', h => by
    obtain ⟨a', b', rfl, ha, hb⟩ := h
    simp only [eval]
    exact evalBin_rel (twin_base Γ) env env.resolver env.typeResolver env.defaultValue dc op (eval_twin ha) (eval_twin hb)
  | .comp r x it c, Γ, e', h => by
    obtain ⟨s, x', it', c', rfl, hp, hi, hr, hc⟩ := h
    simp only [eval]
    have hR := twin_base (P := P) Γ
    refine hR.bind (eval_twin hi) fun it => hR.bind (hR.lift _) fun ty => hR.ite (fun _ => ?_) (fun _ => hR.throw _)
    exact hR.bind (hR.lift _) fun xs => hR.bind (compM_twin hp (eval_twin hc) (eval_twin hr) xs) fun _ => hR.pure _
  | .contains a b, Γ, e', h => by
    obtain ⟨a', b', rfl, ha, hb⟩ := h
    simp only [eval]
    have hR := twin_base (P := P) Γ
    exact hR.bind (eval_twin ha) fun _ => hR.bind (hR.lift _) fun _ => hR.bind (eval_twin hb) fun _ =>
      hR.bind (hR.lift _) fun _ => hR.pure _
  | .getAttr o n safe, Γ, e', h => by
    obtain ⟨hn, o', rfl, ho⟩ := h
    simp only [eval]
    have hR := twin_base (P := P) Γ
    exact hR.bind (eval_twin ho) fun v => hR.ite (fun _ => hR.pure _) (fun _ => evalGetAttr_twin env v hn)
  | .getItem a b safe, Γ, e', h => by
    obtain ⟨a', b', rfl, ha, hb⟩ := h
    simp only [eval]
    have hR := twin_base (P := P) Γ
    refine hR.bind (eval_twin ha) fun cv => ?_
    refine hR.ite (fun _ => hR.ite (fun _ => hR.pure _) (fun _ => hR.throw _)) (fun _ => ?_)
    refine hR.bind (eval_twin hb) fun iv => hR.bind (hR.lift _) fun o => ?_
    cases o
    · exact hR.ite (fun _ => hR.pure _) (fun _ => hR.throw _)
    · exact hR.pure _
  | .getSlice a b c safe, Γ, e', h => by
    obtain ⟨a', b', c', rfl, ha, hb, hc⟩ := h
    simp only [eval]
    have hR := twin_base (P := P) Γ
    refine hR.bind (eval_twin ha) fun cv => ?_
    exact hR.ite (fun _ => hR.ite (fun _ => hR.pure _) (fun _ => hR.throw _)) (fun _ =>
      evalSlice_rel hR env env.resolver env.typeResolver env.defaultValue cv (eval_twin hb) (eval_twin hc))
  | .sym n t b, Γ, e', h => by
    obtain ⟨n', rfl, hn⟩ := h
    simp only [eval]
    exact evalSymbol_twin env thing t hn
  | .call f args, Γ, e', h => by
    obtain ⟨f', as', rfl, hf, ha⟩ := h
    simp only [eval, alpha_rt hf]
    have hR := twin_base (P := P) Γ
    refine hR.bind (eval_twin hf) fun fv => hR.ite (fun _ => ?_) (fun _ => hR.throw _)
    exact hR.bind (seqM_rel hR (evals_twin ha)) fun vs =>
      evalCall_rel hR env env.resolver env.typeResolver env.defaultValue dc _ _ fv vs
  | .tern a b c, Γ, e', h => by
    obtain ⟨a', b', c', rfl, ha, hb, hc⟩ := h
    simp only [eval]
    have hR := twin_base (P := P) Γ
    exact hR.bind (eval_twin ha) fun v => hR.ite (fun _ => eval_twin hb) (fun _ => eval_twin hc)
  | .not a, Γ, e', h => by
    obtain ⟨a', rfl, ha⟩ := h
    simp only [eval]
    exact (twin_base Γ).bind (eval_twin ha) fun _ => .pure rfl
  | .neg a, Γ, e', h => by
    obtain ⟨a', rfl, ha⟩ := h
    simp only [eval]
    exact (twin_base Γ).bind (eval_twin ha) fun _ => .same _
theorem evals_twin : ∀ {es : List Expr} {Γ : List (String × String)} {es' : List Expr}, Expr.AlphaList P Γ es es' →
    List.Forall₂ (fun m m' => Twin P Γ (fun a b => b = a) m m') (evals env dc thing es) (evals env dc thing es')
  | [], Γ, es', h => by rw [show es' = _ from h]; exact .nil
  | e :: es, Γ, es', h => by
    obtain ⟨x, xs, rfl, hx, hxs⟩ := h
    exact .cons (eval_twin hx) (evals_twin hxs)
theorem evalPairs_twin : ∀ {es : List (Expr × Expr)} {Γ : List (String × String)} {es' : List (Expr × Expr)},
    Expr.AlphaPairs P Γ es es' →
    RelPairs (fun {α} (m m' : M α) => Twin P Γ (fun a b => b = a) m m') (evalPairs env dc thing es) (evalPairs env dc thing es')
  | [], Γ, es', h => by rw [show es' = _ from h]; exact .nil
  | (k, v) :: es, Γ, es', h => by
    obtain ⟨k', v', xs, rfl, hk, hv, hxs⟩ := h
    exact .cons ⟨eval_twin hk, eval_twin hv⟩ (evalPairs_twin hxs)
end
end

/-! ### Construction -/

section
variable (env : Env) (dc : DecCtx)

theorem foldLit_twin {Γ : List (String × String)} {e e' : Expr} (h : e.Alpha P Γ e') :
    Twin P Γ (fun a b => b = a ∧ a.reduced = true) (foldLit env dc e) (foldLit env dc e') := by
  refine (eval_twin env dc .none h).bind fun v v' hv => ?_
  rw [hv]
  refine .lift ?_
  unfold litOf
  rcases fromValue v with err | t
  · exact .error (.same _)
  · exact .ok ⟨rfl, Expr.ofValue_reduced _ _⟩

theorem Twin.constant {Γ : List (String × String)} {m m' : M Expr} (h : Twin P Γ (fun a b => b = a ∧ a.reduced = true) m m') :
    Twin P Γ (Expr.Alpha P Γ) m m' := by
  refine ⟨fun s s' hs => ?_⟩
  obtain ⟨h1, h2⟩ := h.out s s' hs
  refine ⟨?_, h2⟩
  generalize (m s).1 = x at h1
  generalize (m' s').1 = x' at h1
  cases h1 with
  | ok h => rw [h.1]; exact .ok (reduced_alpha h.2)
  | error h => exact .error h

theorem naturalLit_alpha {Γ : List (String × String)} {e e' : Expr} (h : e.Alpha P Γ e') :
    checkNaturalLit e' = checkNaturalLit e := by
  cases e with
  | lit v t => rw [show e' = _ from h]
  | array | set | mapping => obtain ⟨_, rfl, -⟩ := h; rfl
  | bin | contains | getItem => obtain ⟨_, _, rfl, -⟩ := h; rfl
  | comp => obtain ⟨_, _, _, _, rfl, -⟩ := h; rfl
  | getAttr => obtain ⟨-, _, rfl, -⟩ := h; rfl
  | getSlice | tern => obtain ⟨_, _, _, rfl, -⟩ := h; rfl
  | sym => obtain ⟨_, rfl, -⟩ := h; rfl
  | call => obtain ⟨_, _, rfl, -⟩ := h; rfl
  | not | neg => obtain ⟨_, rfl, -⟩ := h; rfl

theorem litTruthy_alpha {Γ : List (String × String)} {e e' : Expr} (h : e.Alpha P Γ e') : e'.litTruthy = e.litTruthy := by
  cases e with
  | lit v t => rw [show e' = _ from h]
  | array xs | set xs =>
    obtain ⟨xs', rfl, h⟩ := h
    cases xs with
    | nil => rw [show xs' = _ from h]
    | cons => obtain ⟨_, _, rfl, -⟩ := h; rfl
  | mapping xs =>
    obtain ⟨xs', rfl, h⟩ := h
    cases xs with
    | nil => rw [show xs' = _ from h]
    | cons p xs => obtain ⟨k, v⟩ := p; obtain ⟨_, _, _, rfl, -⟩ := h; rfl
  | bin | contains | getItem => obtain ⟨_, _, rfl, -⟩ := h; rfl
  | comp => obtain ⟨_, _, _, _, rfl, -⟩ := h; rfl
  | getAttr => obtain ⟨-, _, rfl, -⟩ := h; rfl
  | getSlice | tern => obtain ⟨_, _, _, rfl, -⟩ := h; rfl
  | sym => obtain ⟨_, rfl, -⟩ := h; rfl
  | call => obtain ⟨_, _, rfl, -⟩ := h; rfl
  | not | neg => obtain ⟨_, rfl, -⟩ := h; rfl

theorem check_alpha (op : BinOp) {Γ : List (String × String)} {a b a' b' : Expr} (ha : a.Alpha P Γ a') (hb : b.Alpha P Γ b') :
    op.check env a' b' = op.check env a b := by
  unfold BinOp.check
  simp only [alpha_rt ha, alpha_rt hb, naturalLit_alpha ha, naturalLit_alpha hb]
  cases op <;> try rfl
  cases b with
  | lit v t => rw [show b' = _ from hb]
  | array | set | mapping => obtain ⟨_, rfl, -⟩ := hb; rfl
  | bin | contains | getItem => obtain ⟨_, _, rfl, -⟩ := hb; rfl
  | comp => obtain ⟨_, _, _, _, rfl, -⟩ := hb; rfl
  | getAttr => obtain ⟨-, _, rfl, -⟩ := hb; rfl
  | getSlice | tern => obtain ⟨_, _, _, rfl, -⟩ := hb; rfl
  | sym => obtain ⟨_, rfl, -⟩ := hb; rfl
  | call => obtain ⟨_, _, rfl, -⟩ := hb; rfl
  | not | neg => obtain ⟨_, rfl, -⟩ := hb; rfl

theorem mkBin_twin (op : BinOp) {Γ : List (String × String)} {a b a' b' : Expr} (ha : a.Alpha P Γ a') (hb : b.Alpha P Γ b') :
    Twin P Γ (Expr.Alpha P Γ) (mkBin env dc op a b) (mkBin env dc op a' b') := by
  unfold mkBin
  rw [check_alpha env op ha hb, alpha_reduced ha, alpha_reduced hb]
  refine (Twin.same _).bind fun _ _ _ => ?_
  exact .ite (foldLit_twin env dc (e := .bin op a b) ⟨_, _, rfl, ha, hb⟩).constant (.pure ⟨_, _, rfl, ha, hb⟩)

theorem mkContains_twin {Γ : List (String × String)} {a b a' b' : Expr} (ha : a.Alpha P Γ a') (hb : b.Alpha P Γ b') :
    Twin P Γ (Expr.Alpha P Γ) (mkContains env dc a b) (mkContains env dc a' b') := by
  unfold mkContains
  rw [alpha_rt ha, alpha_rt hb, alpha_reduced ha, alpha_reduced hb]
  refine (Twin.same _).bind fun _ _ _ => ?_
  refine .ite ((eval_twin env dc .none (e := .contains a b) ⟨_, _, rfl, ha, hb⟩).bind fun v v' hv => ?_) (.pure ⟨_, _, rfl, ha, hb⟩)
  rw [hv]
  exact .pure rfl

theorem mkGetAttr_twin (n : String) (safe : Bool) {Γ : List (String × String)} {o o' : Expr} (hn : SameVariable Γ n n)
    (ho : o.Alpha P Γ o') : Twin P Γ (Expr.Alpha P Γ) (mkGetAttr env dc o n safe) (mkGetAttr env dc o' n safe) := by
  unfold mkGetAttr
  have hrt : (Expr.getAttr o' n safe).rt = (Expr.getAttr o n safe).rt := by simp only [Expr.rt, alpha_rt ho]
  simp only [hrt, alpha_rt ho, alpha_reduced ho]
  refine (Twin.same _).bind fun _ _ _ => ?_
  refine .ite (Twin.constant ((foldLit_twin env dc (e := .getAttr o n safe) ⟨hn, _, rfl, ho⟩).bind fun e e' he => ?_))
    (.pure ⟨hn, _, rfl, ho⟩)
  rw [he.1]
  split
  · exact .ite (.pure ⟨rfl, rfl⟩) (.pure ⟨rfl, rfl⟩)
  · exact .pure ⟨rfl, he.2⟩

theorem mkGetItem_twin (safe : Bool) {Γ : List (String × String)} {a b a' b' : Expr} (ha : a.Alpha P Γ a') (hb : b.Alpha P Γ b') :
    Twin P Γ (Expr.Alpha P Γ) (mkGetItem env dc a b safe) (mkGetItem env dc a' b' safe) := by
  unfold mkGetItem
  rw [alpha_rt ha, alpha_rt hb, alpha_reduced ha, alpha_reduced hb]
  refine (Twin.same _).bind fun _ _ _ => ?_
  exact .ite (.pure rfl) (.ite (foldLit_twin env dc (e := .getItem a b safe) ⟨_, _, rfl, ha, hb⟩).constant (.pure ⟨_, _, rfl, ha, hb⟩))

theorem mkGetSlice_twin (safe : Bool) {Γ : List (String × String)} {a b c a' b' c' : Expr} (ha : a.Alpha P Γ a')
    (hb : b.Alpha P Γ b') (hc : c.Alpha P Γ c') :
    Twin P Γ (Expr.Alpha P Γ) (mkGetSlice env dc c a b safe) (mkGetSlice env dc c' a' b' safe) := by
  unfold mkGetSlice
  rw [alpha_rt hc, alpha_reduced ha, alpha_reduced hb, alpha_reduced hc]
  refine (Twin.same _).bind fun _ _ _ => ?_
  exact .ite (foldLit_twin env dc (e := .getSlice c a b safe) ⟨_, _, _, rfl, hc, ha, hb⟩).constant (.pure ⟨_, _, _, rfl, hc, ha, hb⟩)

theorem mkCall_twin {Γ : List (String × String)} {f f' : Expr} {as as' : List Expr} (hf : f.Alpha P Γ f')
    (ha : Expr.AlphaList P Γ as as') : Twin P Γ (Expr.Alpha P Γ) (mkCall env dc f as) (mkCall env dc f' as') := by
  unfold mkCall
  rw [alpha_rt hf, alpha_rts ha, alpha_reduced hf, alpha_reducedList ha]
  have key := Twin.ite (c := (f.reduced && Expr.reducedList as) = true)
    (foldLit_twin env dc (e := .call f as) ⟨_, _, rfl, hf, ha⟩).constant
    (Twin.pure (Q := Expr.Alpha P Γ) (a := .call f as) ⟨_, _, rfl, hf, ha⟩)
  by_cases h : DataType.eq f.rt .undefined = true
  · simp only [h, if_true]; exact key
  · simp only [h]; exact (Twin.same _).bind fun _ _ _ => key

theorem mkTern_alpha {Γ : List (String × String)} {a b c a' b' c' : Expr} (ha : a.Alpha P Γ a')
    (hb : b.Alpha P Γ b') (hc : c.Alpha P Γ c') : (mkTern a b c).Alpha P Γ (mkTern a' b' c') := by
  unfold mkTern
  rw [alpha_reduced ha, litTruthy_alpha ha]
  split
  · split <;> assumption
  · exact ⟨_, _, _, rfl, ha, hb, hc⟩

theorem mkNot_twin {Γ : List (String × String)} {a a' : Expr} (ha : a.Alpha P Γ a') :
    Twin P Γ (Expr.Alpha P Γ) (mkNot env dc a) (mkNot env dc a') := by
  unfold mkNot
  rw [alpha_reduced ha]
  refine .ite ((eval_twin env dc .none (e := .not a) ⟨_, rfl, ha⟩).bind fun v v' hv => ?_) (.pure ⟨_, rfl, ha⟩)
  rw [hv]
  exact .pure rfl

theorem mkNeg_twin {Γ : List (String × String)} {a a' : Expr} (ha : a.Alpha P Γ a') :
    Twin P Γ (Expr.Alpha P Γ) (mkNeg env dc a) (mkNeg env dc a') := by
  by_cases hr : a.reduced = true
  · have key : ∀ t, Twin P Γ (Expr.Alpha P Γ) (do let v ← eval env dc .none (.neg a); pure (Expr.lit v t))
        (do let v ← eval env dc .none (.neg a'); pure (Expr.lit v t)) := fun t =>
      (eval_twin env dc .none (e := .neg a) ⟨_, rfl, ha⟩).bind fun v v' hv => by rw [hv]; exact .pure rfl
    unfold mkNeg
    rw [alpha_reduced ha, if_pos hr, if_pos hr]
    cases a with
    | lit v t =>
      obtain rfl : a' = _ := ha
      split
      · exact key _
      · exact key _
      · exact .throw
    | array | set | mapping => obtain ⟨_, rfl, -⟩ := ha; exact .throw
    | _ => simp [Expr.reduced] at hr
  · unfold mkNeg
    rw [alpha_reduced ha, if_neg hr, if_neg hr]
    exact .pure ⟨_, rfl, ha⟩

theorem mkSym_twin {Γ : List (String × String)} {n n' : String} {b : Bool} (h : if b then n = n' else SameVariable Γ n n') :
    Twin P Γ (Expr.Alpha P Γ) (mkSym env n b) (mkSym env n' b) := by
  unfold mkSym
  refine Twin.bind (Q := fun _ _ => True) ⟨fun s s' hs => ⟨.ok trivial, ⟨hs.groups, hs.log, hs.scopes, hs.names⟩⟩⟩ fun _ _ _ => ?_
  refine Twin.bind (Q := fun a b => b = a) ⟨fun s s' hs => ?_⟩ fun t t' ht => ?_
  · cases b with
    | true =>
      simp only [if_true] at h
      subst h
      exact ⟨.ok rfl, hs⟩
    | false =>
      simp only [Bool.false_eq_true, if_false] at h
      obtain ⟨L, h1, h2, h3⟩ := hs.scopes
      simp only [ctxResolveType, Bool.false_eq_true, if_false]
      rw [h3] at h
      rcases lookup_linked h with ⟨k1, k2, rfl⟩ | ⟨-, v, t, k1, k2⟩
      · rw [h1, h2, k1, k2]
        exact ⟨alike_refl _, hs⟩
      · rw [h1, h2, k1, k2]
        exact ⟨.ok rfl, hs⟩
  · rw [ht]
    exact .pure ⟨_, rfl, h⟩

mutual
theorem build_twin : ∀ {r : Raw} {Γ : List (String × String)} {r' : Raw}, r.Alpha P Γ r' →
    Twin P Γ (Expr.Alpha P Γ) (build env dc r) (build env dc r')
  | .lit v, Γ, r', h => by
    rw [show r' = _ from h]; simp only [build]
    refine .lift ?_
    rcases fromValue v with e | t
    · exact .error (.same _)
    · exact .ok rfl
  | .floatLit v, Γ, r', h => by
    rw [show r' = _ from h]; simp only [build]
    refine .lift ?_
    rcases parseFloat v.toList with e | t
    · exact .error (.same _)
    · exact .ok rfl
  | .datetimeLit v, Γ, r', h => by
    rw [show r' = _ from h]; simp only [build]
    refine .lift ?_
    rcases parseDatetime env v with e | t
    · exact .error (.same _)
    · exact .ok rfl
  | .timedeltaLit v, Γ, r', h => by
    rw [show r' = _ from h]; simp only [build]
    refine .lift ?_
    rcases parseTimedelta v.toList with e | t
    · exact .error (.same _)
    · exact .ok rfl
  | .array xs, Γ, r', h => by
    obtain ⟨xs', rfl, h⟩ := h
    simp only [build]
    exact (buildList_twin h).bind fun es es' he => .pure ⟨_, rfl, he⟩
  | .set xs, Γ, r', h => by
    obtain ⟨xs', rfl, h⟩ := h
    simp only [build]
    exact (buildList_twin h).bind fun es es' he => .pure ⟨_, rfl, he⟩
  | .mapping xs, Γ, r', h => by
    obtain ⟨xs', rfl, h⟩ := h
    simp only [build]
    refine (buildPairs_twin h).bind fun es es' he => .lift ?_
    unfold mkMapping
    rw [(alpha_prts he).1, (alpha_prts he).2]
    rcases mkMappingType (memberType (Expr.keyRts es)) (memberType (Expr.valRts es)) true with e | t
    · exact .error (.same _)
    · exact .ok ⟨_, rfl, he⟩
  | .bin op a b, Γ, r', h => by
    obtain ⟨a', b', rfl, ha, hb⟩ := h
    simp only [build]
    exact (build_twin ha).bind fun _ _ ha => (build_twin hb).bind fun _ _ hb => mkBin_twin env dc op ha hb
  | .comp r x it c, Γ, r', h => by
    obtain ⟨s, x', it', c', rfl, hp, hi, hr, hc⟩ := h
    simp only [build]
    refine (build_twin hi).bind fun e e' he => ?_
    rw [alpha_rt he]
    refine (Twin.same _).bind fun t t' ht => ?_
    rw [ht]
    refine Twin.bind (Q := fun p p' => p.1.Alpha P (Γ ++ [(x, x')]) p'.1 ∧ p.2.Alpha P (Γ ++ [(x, x')]) p'.2)
      (Twin.withScope hp ?_) fun p p' hpp => .pure ⟨_, _, _, _, rfl, hp, he, hpp.2, hpp.1⟩
    exact (build_twin hc).bind fun _ _ hc => (build_twin hr).bind fun _ _ hr => .pure ⟨hc, hr⟩
  | .contains a b, Γ, r', h => by
    obtain ⟨a', b', rfl, ha, hb⟩ := h
    simp only [build]
    exact (build_twin ha).bind fun _ _ ha => (build_twin hb).bind fun _ _ hb => mkContains_twin env dc ha hb
  | .getAttr o n safe, Γ, r', h => by
    obtain ⟨hn, o', rfl, ho⟩ := h
    simp only [build]
    exact (build_twin ho).bind fun _ _ ho => mkGetAttr_twin env dc n safe hn ho
  | .getItem a b safe, Γ, r', h => by
    obtain ⟨a', b', rfl, ha, hb⟩ := h
    simp only [build]
    exact (build_twin ha).bind fun _ _ ha => (build_twin hb).bind fun _ _ hb => mkGetItem_twin env dc safe ha hb
  | .getSlice a b c safe, Γ, r', h => by
    obtain ⟨a', b', c', rfl, ha, hb, hc⟩ := h
    simp only [build]
    exact (build_twin hb).bind fun _ _ hb => (build_twin hc).bind fun _ _ hc => (build_twin ha).bind fun _ _ ha =>
      mkGetSlice_twin env dc safe hb hc ha
  | .sym n b, Γ, r', h => by
    obtain ⟨n', rfl, hn⟩ := h
    simp only [build]
    exact mkSym_twin env hn
  | .call f args, Γ, r', h => by
    obtain ⟨f', as', rfl, hf, ha⟩ := h
    simp only [build]
    exact (build_twin hf).bind fun _ _ hf => (buildList_twin ha).bind fun _ _ ha => mkCall_twin env dc hf ha
  | .tern a b c, Γ, r', h => by
    obtain ⟨a', b', c', rfl, ha, hb, hc⟩ := h
    simp only [build]
    exact (build_twin ha).bind fun _ _ ha => (build_twin hb).bind fun _ _ hb => (build_twin hc).bind fun _ _ hc =>
      .pure (mkTern_alpha ha hb hc)
  | .not a, Γ, r', h => by
    obtain ⟨a', rfl, ha⟩ := h
    simp only [build]
    exact (build_twin ha).bind fun _ _ ha => mkNot_twin env dc ha
  | .neg a, Γ, r', h => by
    obtain ⟨a', rfl, ha⟩ := h
    simp only [build]
    exact (build_twin ha).bind fun _ _ ha => mkNeg_twin env dc ha
theorem buildList_twin : ∀ {xs : List Raw} {Γ : List (String × String)} {xs' : List Raw}, Raw.AlphaList P Γ xs xs' →
    Twin P Γ (Expr.AlphaList P Γ) (buildList env dc xs) (buildList env dc xs')
  | [], Γ, xs', h => by rw [show xs' = _ from h]; simp only [buildList]; exact .pure rfl
  | x :: xs, Γ, xs', h => by
    obtain ⟨y, ys, rfl, hy, hys⟩ := h
    simp only [buildList]
    exact (build_twin hy).bind fun _ _ hy => (buildList_twin hys).bind fun _ _ hys => .pure ⟨_, _, rfl, hy, hys⟩
theorem buildPairs_twin : ∀ {xs : List (Raw × Raw)} {Γ : List (String × String)} {xs' : List (Raw × Raw)},
    Raw.AlphaPairs P Γ xs xs' → Twin P Γ (Expr.AlphaPairs P Γ) (buildPairs env dc xs) (buildPairs env dc xs')
  | [], Γ, xs', h => by rw [show xs' = _ from h]; simp only [buildPairs]; exact .pure rfl
  | (k, v) :: xs, Γ, xs', h => by
    obtain ⟨k', v', ys, rfl, hk, hv, hys⟩ := h
    simp only [buildPairs]
    exact (build_twin hk).bind fun _ _ hk => (build_twin hv).bind fun _ _ hv => (buildPairs_twin hys).bind fun _ _ hys =>
      .pure ⟨_, _, _, rfl, hk, hv, hys⟩
end
end

end

/-! ### Rules -/

/-- Two rules that are used alike: the same result type, and on every thing, after whatever happened before, the same value or
the same exception (up to names of variables), the same truth value as a match, the same groups left behind, and the same
lookups of names and calls of functions in the same order. -/
structure AlikeRules (P : String → String → Prop) (env : Env) (e e' : Expr) : Prop where
  type : e'.rt = e.rt
  evaluate : ∀ (thing : Value) (q : Proc),
    AlikeOutcome P (fun v v' => v' = v) (q.evaluate env e thing).1 (q.evaluate env e' thing).1 ∧
    (q.evaluate env e' thing).2.st.log = (q.evaluate env e thing).2.st.log ∧
    (q.evaluate env e' thing).2.st.groups = (q.evaluate env e thing).2.st.groups
  isMatch : ∀ (thing : Value) (s : St),
    AlikeOutcome P (fun v v' => v' = v) (ruleMatches env e thing s).1 (ruleMatches env e' thing s).1

theorem alikeRules {P : String → String → Prop} (env : Env) {e e' : Expr} (h : e.Alpha P [] e') : AlikeRules P env e e' := by
  have key : ∀ (thing : Value) (s : St), AlikeOutcome P (fun v v' => v' = v) (ruleEval env e thing s).1 (ruleEval env e' thing s).1 ∧
      Linked P [] (ruleEval env e thing s).2 (ruleEval env e' thing s).2 := fun thing s =>
    (eval_twin env env.decCtx thing h).out s.reset s.reset ⟨rfl, rfl, ⟨[], rfl, rfl, rfl⟩, by simp⟩
  refine ⟨alpha_rt h, fun thing q => ?_, fun thing s => ?_⟩
  · obtain ⟨h1, h2⟩ := key thing q.st
    exact ⟨h1, h2.log, h2.groups⟩
  · obtain ⟨h1, -⟩ := key thing s
    unfold ruleMatches
    rw [M.bind_apply, M.bind_apply]
    rcases hx : ruleEval env e thing s with ⟨x, s1⟩
    rcases hx' : ruleEval env e' thing s with ⟨x', s1'⟩
    rw [hx, hx'] at h1
    cases h1 with
    | ok h => rw [h]; exact .ok rfl
    | error h => exact .error h

/-- **C84.** Two rules that differ only in the names of comprehension variables are used alike: both are accepted or both
are refused with the same exception (up to names of variables), with the same lookups and calls; and accepted ones have the
same result type and give the same on every thing. -/
theorem variable_names_do_not_matter {P : String → String → Prop} {codec : LitCodec} {env : Env} {dct : DecCtx}
    (acts : List TextAct) {text text' : String} {raw raw' : Raw} {c c' : Option String}
    (ht : (parseText codec (runTexts codec env acts Proc.new).line text).out = .ok (raw, c))
    (ht' : (parseText codec (runTexts codec env acts Proc.new).line text').out = .ok (raw', c'))
    (h : raw.Alpha P [] raw') :
    AlikeOutcome P (AlikeRules P env) ((runTexts codec env acts Proc.new).rule codec env dct text).1
      ((runTexts codec env acts Proc.new).rule codec env dct text').1 ∧
    ((runTexts codec env acts Proc.new).rule codec env dct text').2.st.log =
      ((runTexts codec env acts Proc.new).rule codec env dct text).2.st.log := by
  have hs := runTexts_scopes codec env acts
  generalize runTexts codec env acts Proc.new = p at *
  obtain ⟨h1, h2⟩ := (build_twin env dct h).out p.st p.st ⟨rfl, rfl, ⟨[], hs, hs, rfl⟩, by simp⟩
  simp only [Proc.rule, parseRule, ht, ht', construct]
  refine ⟨?_, h2.log⟩
  generalize (build env dct raw p.st).1 = x at h1
  generalize (build env dct raw' p.st).1 = x' at h1
  cases h1 with
  | ok h => exact .ok (alikeRules env h)
  | error h => exact .error h

/-! ### Renaming -/

mutual
/-- the rule with the names of symbols and of comprehension variables replaced -/
def Raw.rename (f : String → String) : Raw → Raw
  | .lit v => .lit v
  | .floatLit s => .floatLit s
  | .datetimeLit s => .datetimeLit s
  | .timedeltaLit s => .timedeltaLit s
  | .array xs => .array (Raw.renames f xs)
  | .set xs => .set (Raw.renames f xs)
  | .mapping kvs => .mapping (Raw.renamePairs f kvs)
  | .bin op a b => .bin op (a.rename f) (b.rename f)
  | .comp r x it c => .comp (r.rename f) (f x) (it.rename f) (c.rename f)
  | .contains a b => .contains (a.rename f) (b.rename f)
  | .getAttr o n safe => .getAttr (o.rename f) n safe
  | .getItem a b safe => .getItem (a.rename f) (b.rename f) safe
  | .getSlice a b c safe => .getSlice (a.rename f) (b.rename f) (c.rename f) safe
  | .sym n b => .sym (if b then n else f n) b
  | .call g args => .call (g.rename f) (Raw.renames f args)
  | .tern a b c => .tern (a.rename f) (b.rename f) (c.rename f)
  | .not a => .not (a.rename f)
  | .neg a => .neg (a.rename f)
/-- members -/
def Raw.renames (f : String → String) : List Raw → List Raw
  | [] => []
  | x :: xs => x.rename f :: Raw.renames f xs
/-- items -/
def Raw.renamePairs (f : String → String) : List (Raw × Raw) → List (Raw × Raw)
  | [] => []
  | (k, v) :: xs => (k.rename f, v.rename f) :: Raw.renamePairs f xs
end

mutual
/-- Only names of comprehension variables are replaced: names of attributes, and symbols outside the comprehensions whose
variables have their names, stay (`bound`: the variables around this place). -/
def Raw.Renamable (f : String → String) : List String → Raw → Prop
  | _, .lit _ | _, .floatLit _ | _, .datetimeLit _ | _, .timedeltaLit _ => True
  | bound, .array xs => Raw.RenamableList f bound xs
  | bound, .set xs => Raw.RenamableList f bound xs
  | bound, .mapping kvs => Raw.RenamablePairs f bound kvs
  | bound, .bin _ a b => a.Renamable f bound ∧ b.Renamable f bound
  | bound, .comp r x it c => it.Renamable f bound ∧ r.Renamable f (bound ++ [x]) ∧ c.Renamable f (bound ++ [x])
  | bound, .contains a b => a.Renamable f bound ∧ b.Renamable f bound
  | bound, .getAttr o n _ => f n = n ∧ o.Renamable f bound
  | bound, .getItem a b _ => a.Renamable f bound ∧ b.Renamable f bound
  | bound, .getSlice a b c _ => a.Renamable f bound ∧ b.Renamable f bound ∧ c.Renamable f bound
  | bound, .sym n b => b = true ∨ n ∈ bound ∨ f n = n
  | bound, .call g args => g.Renamable f bound ∧ Raw.RenamableList f bound args
  | bound, .tern a b c => a.Renamable f bound ∧ b.Renamable f bound ∧ c.Renamable f bound
  | bound, .not a => a.Renamable f bound
  | bound, .neg a => a.Renamable f bound
/-- members -/
def Raw.RenamableList (f : String → String) : List String → List Raw → Prop
  | _, [] => True
  | bound, x :: xs => x.Renamable f bound ∧ Raw.RenamableList f bound xs
/-- items -/
def Raw.RenamablePairs (f : String → String) : List String → List (Raw × Raw) → Prop
  | _, [] => True
  | bound, (k, v) :: xs => k.Renamable f bound ∧ v.Renamable f bound ∧ Raw.RenamablePairs f bound xs
end

section
variable {f : String → String} (hf : ∀ a b, f a = f b → a = b)
include hf

theorem renamed_variable : ∀ {bound : List String} {n : String}, n ∈ bound ∨ f n = n →
    SameVariable (bound.map fun z => (z, f z)) n (f n)
  | [], n, h => by
    rcases h with h | h
    · cases h
    · exact h.symm
  | z :: bound, n, h => by
    by_cases hz : n = z
    · exact .inl ⟨hz, by rw [hz]⟩
    · refine .inr ⟨hz, fun h => hz (hf _ _ h), renamed_variable ?_⟩
      rcases h with h | h
      · exact .inl ((List.mem_cons.1 h).resolve_left hz)
      · exact .inr h

mutual
theorem renamed_alpha : ∀ {r : Raw} {bound : List String}, r.Renamable f bound →
    r.Alpha (fun z z' => z' = f z) (bound.map fun z => (z, f z)) (r.rename f)
  | .lit _, _, _ | .floatLit _, _, _ | .datetimeLit _, _, _ | .timedeltaLit _, _, _ => by simp only [Raw.rename]; rfl
  | .array xs, _, h | .set xs, _, h => by simp only [Raw.rename]; exact ⟨_, rfl, renamed_alphaList h⟩
  | .mapping kvs, _, h => by simp only [Raw.rename]; exact ⟨_, rfl, renamed_alphaPairs h⟩
  | .bin _ a b, _, h | .contains a b, _, h | .getItem a b _, _, h => by
    simp only [Raw.rename]; exact ⟨_, _, rfl, renamed_alpha h.1, renamed_alpha h.2⟩
  | .comp r x it c, bound, h => by
    have h1 := renamed_alpha h.2.1
    have h2 := renamed_alpha h.2.2
    simp only [List.map_append, List.map_cons, List.map_nil] at h1 h2
    simp only [Raw.rename]
    exact ⟨_, _, _, _, rfl, rfl, renamed_alpha h.1, h1, h2⟩
  | .getAttr o n safe, bound, h => by
    have hn := renamed_variable hf (bound := bound) (.inr h.1)
    rw [h.1] at hn
    simp only [Raw.rename]
    exact ⟨hn, _, rfl, renamed_alpha h.2⟩
  | .getSlice a b c _, _, h | .tern a b c, _, h => by
    simp only [Raw.rename]; exact ⟨_, _, _, rfl, renamed_alpha h.1, renamed_alpha h.2.1, renamed_alpha h.2.2⟩
  | .sym n b, bound, h => by
    simp only [Raw.rename]
    refine ⟨_, rfl, ?_⟩
    cases b with
    | true => rfl
    | false =>
      simp only [Bool.false_eq_true, if_false]
      exact renamed_variable hf (h.resolve_left (by simp))
  | .call g args, _, h => by
    simp only [Raw.rename]; exact ⟨_, _, rfl, renamed_alpha h.1, renamed_alphaList h.2⟩
  | .not a, _, h | .neg a, _, h => by simp only [Raw.rename]; exact ⟨_, rfl, renamed_alpha h⟩
theorem renamed_alphaList : ∀ {xs : List Raw} {bound : List String}, Raw.RenamableList f bound xs →
    Raw.AlphaList (fun z z' => z' = f z) (bound.map fun z => (z, f z)) xs (Raw.renames f xs)
  | [], _, _ => by simp only [Raw.renames]; rfl
  | x :: xs, _, h => by simp only [Raw.renames]; exact ⟨_, _, rfl, renamed_alpha h.1, renamed_alphaList h.2⟩
theorem renamed_alphaPairs : ∀ {xs : List (Raw × Raw)} {bound : List String}, Raw.RenamablePairs f bound xs →
    Raw.AlphaPairs (fun z z' => z' = f z) (bound.map fun z => (z, f z)) xs (Raw.renamePairs f xs)
  | [], _, _ => by simp only [Raw.renamePairs]; rfl
  | (k, v) :: xs, _, h => by
    simp only [Raw.renamePairs]
    exact ⟨_, _, _, rfl, renamed_alpha h.1, renamed_alpha h.2.1, renamed_alphaPairs h.2.2⟩
end

/-- **C84.** Renaming comprehension variables, one-to-one and without touching any other name, changes nothing but the name
in a SymbolTypeError. -/
theorem renamed_variables {codec : LitCodec} {env : Env} {dct : DecCtx} (acts : List TextAct) {text text' : List Char}
    {raw : Raw} (ht : Means codec text raw) (hr : raw.Renamable f []) (ht' : Means codec text' (raw.rename f)) :
    AlikeOutcome (fun z z' => z' = f z) (AlikeRules (fun z z' => z' = f z) env)
      ((runTexts codec env acts Proc.new).rule codec env dct (String.ofList text)).1
      ((runTexts codec env acts Proc.new).rule codec env dct (String.ofList text')).1 :=
  (variable_names_do_not_matter acts (ht _) (ht' _) (renamed_alpha hf hr)).1
end

/-- the exchange of two names -/
def exchange (x y n : String) : String := if n = x then y else if n = y then x else n

theorem exchange_injective {x y a b : String} (h : exchange x y a = exchange x y b) : a = b := by
  unfold exchange at h
  split at h <;> split at h <;> (try split at h) <;> (try split at h) <;> simp_all

/-- A case of the hypotheses: `[(x) + (y) for x in z if x]` and `[(w) + (y) for w in z if w]`, and what they give. -/
example (codec : LitCodec) : ∃ raw,
    Means codec ('[' :: ((par ['x'] ++ ' ' :: (spelling .ADD ++ ' ' :: par ['y'])) ++ (" for ".toList ++ (['x'] ++
      (" in ".toList ++ (['z'] ++ (" if ".toList ++ (['x'] ++ [']'])))))))) raw ∧
    raw.Renamable (exchange "x" "w") [] ∧
    Means codec ('[' :: ((par ['w'] ++ ' ' :: (spelling .ADD ++ ' ' :: par ['y'])) ++ (" for ".toList ++ (['w'] ++
      (" in ".toList ++ (['z'] ++ (" if ".toList ++ (['w'] ++ [']'])))))))) (raw.rename (exchange "x" "w")) ∧
    runRaw sampleEnv raw (dictOf [("y", .int 1), ("z", .tuple [.int 0, .int 2])]) = .ok (.tuple [.dec (.ofInt 3)]) := by
  have hw : IsWord ['w'] := ⟨by decide, by decide⟩
  have hx : Means codec ['x'] (.sym "x" false) := means_sym x_word
  have hy : Means codec ['y'] (.sym "y" false) := means_sym y_word
  have hz : Means codec ['z'] (.sym "z" false) := means_sym z_word
  have hww : Means codec ['w'] (.sym "w" false) := means_sym hw
  refine ⟨_, means_comp_if (means_bin hx hy .ADD (by decide)) hz hx x_word, ?_,
    means_comp_if (means_bin hww hy .ADD (by decide)) hz hww hw, by decide +kernel⟩
  simp only [Raw.Renamable, List.nil_append]
  decide

/-- Names of attributes have to be left alone: `[(x).y for y in z]` gives the members of `z` when `x` has no attribute `y`,
`[(x).y for w in z]` does not. -/
theorem attribute_name_matters (codec : LitCodec) :
    runText codec sampleEnv ('[' :: ((par ['x'] ++ ('.' :: ['y'])) ++ (" for ".toList ++ (['y'] ++ (" in ".toList ++
      (['z'] ++ [']'])))))) (dictOf [("x", dictOf []), ("z", .tuple [.int 1])]) = .ok (.tuple [.dec (.ofInt 1)]) ∧
    runText codec sampleEnv ('[' :: ((par ['x'] ++ ('.' :: ['y'])) ++ (" for ".toList ++ (['w'] ++ (" in ".toList ++
      (['z'] ++ [']'])))))) (dictOf [("x", dictOf []), ("z", .tuple [.int 1])]) =
        .error (.eng (.attributeResolution "y")) := by
  have hx : Means codec ['x'] (.sym "x" false) := means_sym x_word
  have hz : Means codec ['z'] (.sym "z" false) := means_sym z_word
  have ha := means_attr hx y_word (by decide) false
  exact ⟨(runText_means (means_comp ha hz y_word) _).trans (by decide +kernel),
    (runText_means (means_comp (x := ['w']) ha hz ⟨by decide, by decide⟩) _).trans (by decide +kernel)⟩

/-- The variable of an inner comprehension does not hide the outer one, so renaming the inner one in its own result is not a
renaming: `[[x for x in z] for x in y]` gives members of `y`, `[[w for w in z] for x in y]` members of `z`. -/
theorem hidden_variable_matters (codec : LitCodec) :
    runText codec sampleEnv ('[' :: (('[' :: (['x'] ++ (" for ".toList ++ (['x'] ++ (" in ".toList ++ (['z'] ++ [']'])))))) ++
      (" for ".toList ++ (['x'] ++ (" in ".toList ++ (['y'] ++ [']']))))))
      (dictOf [("y", .tuple [.int 1]), ("z", .tuple [.int 2])]) = .ok (.tuple [.tuple [.dec (.ofInt 1)]]) ∧
    runText codec sampleEnv ('[' :: (('[' :: (['w'] ++ (" for ".toList ++ (['w'] ++ (" in ".toList ++ (['z'] ++ [']'])))))) ++
      (" for ".toList ++ (['x'] ++ (" in ".toList ++ (['y'] ++ [']']))))))
      (dictOf [("y", .tuple [.int 1]), ("z", .tuple [.int 2])]) = .ok (.tuple [.tuple [.dec (.ofInt 2)]]) := by
  have hw : IsWord ['w'] := ⟨by decide, by decide⟩
  have hx : Means codec ['x'] (.sym "x" false) := means_sym x_word
  have hy : Means codec ['y'] (.sym "y" false) := means_sym y_word
  have hz : Means codec ['z'] (.sym "z" false) := means_sym z_word
  have hww : Means codec ['w'] (.sym "w" false) := means_sym hw
  exact ⟨(runText_means (means_comp (means_comp hx hz x_word) hy x_word) _).trans (by decide +kernel),
    (runText_means (means_comp (means_comp hww hz hw) hy x_word) _).trans (by decide +kernel)⟩

end RE
