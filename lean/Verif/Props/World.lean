import Verif.Model.World
import Verif.Props.LookupOrder
import Verif.Props.Laws
import Verif.Props.WellFormed

/-!
# Evaluation in a world that changes (C76)
-/

set_option linter.unusedSimpArgs false
set_option linter.unusedVariables false
set_option linter.unusedSectionVars false

open scoped Computability

namespace RE

/-! ### Constants -/

section
variable (W : World)

mutual
theorem evalW_reduced (env : Env) (dc : DecCtx) (thing : Value) : ∀ e : Expr, e.reduced = true →
    evalW W env dc thing e = eval env dc thing e
  | .lit v rt, _ => by simp only [evalW, eval]
  | .array xs, h => by simp only [evalW, eval, evalsW_reduced env dc thing xs (by simpa only [Expr.reduced] using h)]
  | .set xs, h => by simp only [evalW, eval, evalsW_reduced env dc thing xs (by simpa only [Expr.reduced] using h)]
  | .mapping xs, h => by simp only [evalW, eval, evalPairsW_reduced env dc thing xs (by simpa only [Expr.reduced] using h)]
  | .bin .., h | .comp .., h | .contains .., h | .getAttr .., h | .getItem .., h | .getSlice .., h
  | .sym .., h | .call .., h | .tern .., h | .not _, h | .neg _, h => by simp [Expr.reduced] at h
theorem evalsW_reduced (env : Env) (dc : DecCtx) (thing : Value) : ∀ es : List Expr, Expr.reducedList es = true →
    evalsW W env dc thing es = evals env dc thing es
  | [], _ => rfl
  | e :: es, h => by
    simp only [Expr.reducedList, Bool.and_eq_true] at h
    simp only [evalsW, evals, evalW_reduced env dc thing e h.1, evalsW_reduced env dc thing es h.2]
theorem evalPairsW_reduced (env : Env) (dc : DecCtx) (thing : Value) : ∀ es : List (Expr × Expr), Expr.reducedPairs es = true →
    evalPairsW W env dc thing es = evalPairs env dc thing es
  | [], _ => rfl
  | (k, v) :: es, h => by
    simp only [Expr.reducedPairs, Bool.and_eq_true] at h
    simp only [evalPairsW, evalPairs, evalW_reduced env dc thing k h.1.1, evalW_reduced env dc thing v h.1.2,
      evalPairsW_reduced env dc thing es h.2]
end
end

/-! ### The order of questions -/

section
variable {W : World}

theorem fol_reducedW {thing : Value} {S : List Assignment} {env : Env} {dc : DecCtx} {e : Expr} (h : e.reduced = true)
    {L : Language Step} (hL : ∃ p, p ∈ L) : Follows thing S L (evalW W env dc thing e) := by
  rw [evalW_reduced W env dc thing e h]
  exact fol_reduced h hL

section
variable {thing : Value} {S : List Assignment}

theorem fol_resolveW (o : Value) (name : String) (b : Bool) {L : Language Step} (hL : ∃ p, p ∈ L)
    (hb : b = true → [Step.read name] ∈ L)
    (h : b = false → name ∉ S.map (·.name) → ∃ p ∈ L, ∃ st ∈ p, Event.Is thing (.resolve o name) st) :
    Follows thing S L (ctxResolveW W o name b) :=
  ⟨fun g sy lg => by
    unfold ctxResolveW
    obtain ⟨p0, hp0⟩ := hL
    cases b with
    | true =>
      refine ⟨_, g, sy, [.read name], [.read name], by simp; rfl, hb rfl, ?_⟩
      exact .cons ⟨rfl, rfl⟩ .nil
    | false =>
      cases hs : scopeLookup S name with
      | some a => exact ⟨.ok a.value, g, sy, [], p0, by simp [hs], hp0, .nil⟩
      | none =>
        obtain ⟨p, hp, st, hst, hi⟩ := h rfl (fun hm => by
          obtain ⟨a, ha⟩ := scopeLookup_bound hm
          rw [hs] at ha; cases ha)
        refine ⟨_, g, sy, [.resolve o name], p, by simp [hs]; rfl, hp, ?_⟩
        rw [List.sublistForall₂_iff]
        exact ⟨[st], .cons hi .nil, List.singleton_sublist.2 hst⟩⟩

theorem fol_symbolW {env : Env} {name : String} (rt : DataType) (b : Bool) :
    Follows thing S ((Raw.sym name b).order (S.map (·.name))) (evalSymbolW W env thing name rt b) := by
  unfold evalSymbolW
  refine fol_last ?_ fun v => ⟨_, rfl⟩
  have hc : Follows thing S ((Raw.sym name b).order (S.map (·.name))) (ctxResolveW W thing name b) := by
    refine fol_resolveW thing name b (order_some _ _) (fun hb => by subst hb; simp only [Raw.order, if_true]; rfl) fun hb hn => ?_
    subst hb
    refine ⟨[.name name], ?_, .name name, by simp, rfl, rfl⟩
    simp only [Raw.order, Bool.false_eq_true, if_false, if_neg hn]
    rfl
  refine ⟨fun g sy lg => ?_⟩
  obtain ⟨x, g1, sy1, evs, p, h1, h2, h3⟩ := hc.run g sy lg
  cases x with
  | ok a => exact ⟨.ok a, g1, sy1, evs, p, by simp [M.catchErr, h1], h2, h3⟩
  | error e =>
    simp only [M.catchErr, h1]
    cases isSymErr e <;> cases env.defaultValue <;> exact ⟨_, g1, sy1, evs, p, rfl, h2, h3⟩

theorem fol_getAttrW {env : Env} (o : Value) (name : String) :
    Follows thing S {[.attr name]} (evalGetAttrW W env o name) :=
  ⟨fun g sy lg => by
    have hc : Follows thing S {[.attr name]} (ctxResolveW W o name false) :=
      fol_resolveW o name false (single_some _) (fun h => by cases h) fun _ _ => ⟨[.attr name], rfl, .attr name, by simp, rfl⟩
    obtain ⟨x, g1, sy1, evs, p, h1, h2, h3⟩ := hc.run g sy lg
    obtain ⟨p0, hp0⟩ := single_some [Step.attr name]
    unfold evalGetAttrW
    cases resolveAttr env o name with
    | ok v => exact ⟨_, g, sy, [], p0, by simp; rfl, hp0, .nil⟩
    | error e =>
      simp only
      by_cases he : isAttrErr e = true
      · rw [if_pos he, h1]
        cases x with
        | ok v => exact ⟨_, g1, sy1, evs, p, rfl, h2, h3⟩
        | error e' =>
          simp only
          by_cases he' : isSymErr e' = true
          · rw [if_pos he']
            cases env.defaultValue <;> exact ⟨_, g1, sy1, evs, p, rfl, h2, h3⟩
          · rw [if_neg he']
            exact ⟨_, g1, sy1, evs, p, rfl, h2, h3⟩
      · rw [if_neg he]
        exact ⟨_, g, sy, [], p0, by simp; rfl, hp0, .nil⟩⟩

theorem fol_callLoggedW {dc : DecCtx} (f : Value) (args : List Value) :
    Follows thing S {[.call]} (callLoggedW W dc f args) :=
  ⟨fun g sy _ => ⟨_, g, sy, [.call f args], [.call], rfl, rfl, .cons trivial .nil⟩⟩

theorem fol_mapCallsW {dc : DecCtx} (f : Value) : ∀ xs : List Value,
    Follows thing S {[.call]}∗ (mapCallsW W dc f xs)
  | [] => fol_pure (star_some _) _
  | x :: xs => by
    unfold mapCallsW
    exact fol_le star_cons (fol_bind (star_some _) (fol_callLoggedW f [x]) fun _ =>
      fol_last (fol_mapCallsW f xs) fun _ => ⟨_, rfl⟩)

theorem fol_filterCallsW {dc : DecCtx} (f : Value) : ∀ xs : List Value,
    Follows thing S {[.call]}∗ (filterCallsW W dc f xs)
  | [] => fol_pure (star_some _) _
  | x :: xs => by
    unfold filterCallsW
    exact fol_le star_cons (fol_bind (star_some _) (fol_callLoggedW f [x]) fun _ =>
      fol_last (fol_filterCallsW f xs) fun _ => ⟨_, rfl⟩)

theorem fol_callFnW {env : Env} {dc : DecCtx} (f : Value) (args : List Value) :
    Follows thing S {[.call]}∗ (callFnW W env dc f args) := by
  have hlog : ∀ (f : Value) (args : List Value), Follows thing S {[.call]}
      (M.modify fun s => { s with log := s.log ++ [.call f args] }) := fun f args =>
    ⟨fun g sy _ => ⟨_, g, sy, [.call f args], [.call], rfl, rfl, .cons trivial .nil⟩⟩
  unfold callFnW
  split
  · exact fol_le star_cons (fol_bind (star_some _) (hlog _ _) fun _ => fol_then (star_some _) fun xs =>
      fol_last (fol_mapCallsW _ xs) fun _ => ⟨_, rfl⟩)
  · exact fol_le star_cons (fol_bind (star_some _) (hlog _ _) fun _ => fol_then (star_some _) fun xs =>
      fol_last (fol_filterCallsW _ xs) fun _ => ⟨_, rfl⟩)
  · refine fol_le star_cons (m := callLoggedW W dc f args) ?_
    refine fol_mono ?_ (fol_callLoggedW f args)
    intro p hp
    refine ⟨p ++ [], Language.append_mem_mul hp (Language.nil_mem_kstar _), by simp⟩

theorem fol_evalCallW {env : Env} {dc : DecCtx} (ft rt : DataType) (f : Value) (args : List Value) :
    Follows thing S {[.call]}∗ (evalCallW W env dc ft rt f args) := by
  have hfin : Follows thing S {[.call]}∗ (finishCallW W env dc rt f args) := by
    unfold finishCallW
    refine fol_last ?_ fun r => ?_
    · refine ⟨fun g sy lg => ?_⟩
      obtain ⟨x, g1, sy1, evs, p, h1, h2, h3⟩ := (fol_callFnW (W := W) (env := env) (dc := dc) (thing := thing) (S := S) f args).run g sy lg
      cases x with
      | ok a => exact ⟨.ok a, g1, sy1, evs, p, by simp [M.catchErr, h1], h2, h3⟩
      | error e => exact ⟨.error (.eng .functionCall), g1, sy1, evs, p, by simp [M.catchErr, h1, M.throw], h2, h3⟩
    · cases h1 : coerceVerify env.utcoffset r with
      | error e => exact ⟨.error e, rfl⟩
      | ok v =>
        cases h2 : fromValue (localise env v) with
        | error e => exact ⟨.error e, by funext s; simp [bind, M.bind, M.lift, h2]⟩
        | ok t =>
          by_cases hc : DataType.compat t rt = true
          · exact ⟨.ok (localise env v), by funext s; simp [bind, M.bind, M.lift, h2, hc, pure, M.pure]⟩
          · exact ⟨.error (.eng .functionCall), by funext s; simp [bind, M.bind, M.lift, h2, hc, M.throw]⟩
  unfold evalCallW
  exact fol_ite (fun _ => hfin) fun _ => fol_then (star_some _) fun _ => hfin

end

mutual
theorem built_followsW {env : Env} {dct dc : DecCtx} {thing : Value} : ∀ (raw : Raw) {Γ S : List Assignment} {e : Expr},
    Built env dct Γ raw e → Follows thing S (raw.order (S.map (·.name))) (evalW W env dc thing e)
  | .sym n b, Γ, S, e, h => by
    simp only [Built] at h
    obtain ⟨t, _, rfl⟩ := h
    simp only [evalW]
    exact fol_symbolW t b
  | .lit _, Γ, S, e, h | .floatLit _, Γ, S, e, h | .datetimeLit _, Γ, S, e, h | .timedeltaLit _, Γ, S, e, h => by
    simp only [Built] at h
    obtain ⟨_, _, rfl⟩ := h
    exact fol_reducedW rfl (order_some _ _)
  | .array xs, Γ, S, e, h => by
    simp only [Built] at h
    obtain ⟨es, h1, rfl⟩ := h
    simp only [Raw.order, evalW]
    exact fol_last (fol_seqM (orders_some xs _) (builts_followsW xs h1)) fun _ => ⟨_, rfl⟩
  | .set xs, Γ, S, e, h => by
    simp only [Built] at h
    obtain ⟨es, h1, rfl⟩ := h
    simp only [Raw.order, evalW]
    exact fol_last (fol_setM (orders_some xs _) (builts_followsW xs h1) _) fun _ => ⟨_, rfl⟩
  | .mapping kvs, Γ, S, e, h => by
    simp only [Built] at h
    obtain ⟨es, h1, -, rfl⟩ := h
    simp only [Raw.order, evalW]
    rw [← bind_assoc]
    obtain ⟨hk, hv⟩ := builtp_followsW (dc := dc) (thing := thing) (S := S) kvs h1
    have := fol_mapping (off := env.utcoffset) (keyOrders_some kvs _) (valueOrders_some kvs _) hk hv (acc := []) (A := [])
      (by simp) .nil
    rw [List.append_nil] at this
    exact fol_last this fun _ => ⟨_, rfl⟩
  | .bin op l r, Γ, S, e, h => by
    simp only [Built] at h
    obtain ⟨l', r', h1, h2, -, h3⟩ := h
    split at h3
    · exact fol_reducedW (folds_reduced' h3) (order_some _ _)
    · subst h3
      simp only [evalW]
      refine fol_evalBin op ?_ (order_some r _) (built_followsW l h1) (built_followsW r h2)
      cases op <;> simp only [Raw.order]
  | .comp result var iterable cond, Γ, S, e, h => by
    simp only [Built] at h
    obtain ⟨it, t, c, r, h1, -, h2, h3, rfl⟩ := h
    simp only [Raw.order, evalW]
    refine fol_bind (star_some _) (built_followsW iterable h1) fun v => fol_then (star_some _) fun t =>
      fol_ite (fun _ => fol_then (star_some _) fun xs => fol_last ?_ fun _ => ⟨_, rfl⟩) fun _ => fol_throw (star_some _) _
    refine fol_loop (order_some _ _) (order_some _ _) (fun x => ?_) (fun x => ?_) xs
    · have := built_followsW (dc := dc) (thing := thing) (S := S ++ [⟨var, x, .undefined⟩]) cond h2
      rwa [List.map_append] at this
    · have := built_followsW (dc := dc) (thing := thing) (S := S ++ [⟨var, x, .undefined⟩]) result h3
      rwa [List.map_append] at this
  | .contains l r, Γ, S, e, h => by
    simp only [Built] at h
    obtain ⟨l', r', h1, h2, -, h3⟩ := h
    split at h3
    · obtain ⟨v, -, rfl⟩ := h3
      exact fol_reducedW rfl (order_some _ _)
    · subst h3
      simp only [Raw.order, evalW]
      refine fol_bind (order_some _ _) (built_followsW l h1) fun c => fol_then (order_some _ _) fun t =>
        fol_last (built_followsW r h2) fun m => ?_
      cases h : opContains env.utcoffset t c m with
      | error e => exact ⟨.error e, rfl⟩
      | ok b => exact ⟨.ok (.bool b), rfl⟩
  | .getAttr o name safe, Γ, S, e, h => by
    simp only [Built] at h
    obtain ⟨o', h1, -, h3⟩ := h
    split at h3
    · obtain ⟨e', hf, rfl⟩ := h3
      exact fol_reducedW (attrLit_reduced' (folds_reduced' hf)) (order_some _ _)
    · subst h3
      simp only [Raw.order, evalW]
      exact fol_bind (single_some _) (built_followsW o h1) fun v => fol_ite (fun _ => fol_pure (single_some _) _)
        fun _ => fol_getAttrW v name
  | .getItem l r safe, Γ, S, e, h => by
    simp only [Built] at h
    obtain ⟨l', r', h1, h2, -, h3⟩ := h
    split at h3
    · subst h3; exact fol_reducedW rfl (order_some _ _)
    split at h3
    · exact fol_reducedW (folds_reduced' h3) (order_some _ _)
    · subst h3
      have hr := order_some r (S.map (·.name))
      simp only [Raw.order, evalW]
      refine fol_bind hr (built_followsW l h1) fun c => fol_ite (fun _ => fol_ite (fun _ => fol_pure hr _) fun _ =>
        fol_throw hr _) fun _ => fol_last (built_followsW r h2) fun i => ?_
      cases h : opGetItem env.utcoffset c i with
      | error e => exact ⟨.error e, rfl⟩
      | ok o =>
        cases o with
        | some v => exact ⟨.ok (newValue env v), rfl⟩
        | none =>
          cases safe
          · exact ⟨.error (.eng .lookup), rfl⟩
          · exact ⟨.ok .none, rfl⟩
  | .getSlice c a b safe, Γ, S, e, h => by
    simp only [Built] at h
    obtain ⟨c', a', b', h1, h2, h3, -, h4⟩ := h
    split at h4
    · exact fol_reducedW (folds_reduced' h4) (order_some _ _)
    · subst h4
      have hb := order_some b (S.map (·.name))
      have hr := mem_mul_of (order_some a (S.map (·.name))) hb
      simp only [Raw.order, evalW]
      refine fol_bind hr (built_followsW c h1) fun v => fol_ite (fun _ => fol_ite (fun _ => fol_pure hr _) fun _ =>
        fol_throw hr _) fun _ => ?_
      unfold evalSlice
      refine fol_bind hb (built_followsW a h2) fun x => fol_then hb fun x => fol_last (built_followsW b h3) fun y => ?_
      cases h5 : sliceArg y with
      | error e => exact ⟨.error e, rfl⟩
      | ok y' =>
        cases h6 : pyGetSlice v x y' with
        | error e => exact ⟨.error e, by funext s; simp [bind, M.bind, M.lift, h6]⟩
        | ok w => exact ⟨.ok (coerce env.utcoffset w), by funext s; simp [bind, M.bind, M.lift, h6, pure, M.pure]⟩
  | .call f args, Γ, S, e, h => by
    simp only [Built] at h
    obtain ⟨f', as, h1, h2, -, h3⟩ := h
    split at h3
    · exact fol_reducedW (folds_reduced' h3) (order_some _ _)
    · subst h3
      have hr := mem_mul_of (prod_some (orders_some args (S.map (·.name)))) (star_some {[Step.call]})
      simp only [Raw.order, evalW]
      exact fol_bind hr (built_followsW f h1) fun fv => fol_ite (fun _ => fol_bind (star_some _)
        (fol_seqM (orders_some args _) (builts_followsW args h2)) fun vs => fol_evalCallW _ _ fv vs) fun _ => fol_throw hr _
  | .tern c t f, Γ, S, e, h => by
    simp only [Built] at h
    obtain ⟨c', t', f', h1, h2, h3, rfl⟩ := h
    have i1 := built_followsW (dc := dc) (thing := thing) (S := S) c h1
    have i2 : Follows thing S (t.order (S.map (·.name)) + f.order (S.map (·.name))) (evalW W env dc thing t') :=
      fol_le (fun p hp => (Language.mem_add _ _ _).2 (.inl hp)) (built_followsW t h2)
    have i3 : Follows thing S (t.order (S.map (·.name)) + f.order (S.map (·.name))) (evalW W env dc thing f') :=
      fol_le (fun p hp => (Language.mem_add _ _ _).2 (.inr hp)) (built_followsW f h3)
    have hs : ∃ p, p ∈ t.order (S.map (·.name)) + f.order (S.map (·.name)) := by
      obtain ⟨p, hp⟩ := order_some t (S.map (·.name))
      exact ⟨p, (Language.mem_add _ _ _).2 (.inl hp)⟩
    have after : ∀ {m : M Value}, Follows thing S (t.order (S.map (·.name)) + f.order (S.map (·.name))) m →
        Follows thing S (c.order (S.map (·.name)) * (t.order (S.map (·.name)) + f.order (S.map (·.name)))) m := by
      intro m hm
      refine fol_mono (fun p hp => ?_) hm
      obtain ⟨q, hq⟩ := order_some c (S.map (·.name))
      exact ⟨q ++ p, Language.append_mem_mul hq hp, List.sublist_append_right q p⟩
    simp only [Raw.order]
    unfold mkTern
    split
    · split
      · exact after i2
      · exact after i3
    · simp only [evalW]
      exact fol_bind hs i1 fun v => fol_ite (fun _ => i2) fun _ => i3
  | .not x, Γ, S, e, h => by
    simp only [Built] at h
    obtain ⟨x', h1, h3⟩ := h
    split at h3
    · obtain ⟨v, -, rfl⟩ := h3
      exact fol_reducedW rfl (order_some _ _)
    · subst h3
      simp only [Raw.order, evalW]
      exact fol_last (built_followsW x h1) fun _ => ⟨_, rfl⟩
  | .neg x, Γ, S, e, h => by
    simp only [Built] at h
    obtain ⟨x', h1, h3⟩ := h
    split at h3
    · obtain ⟨w, v, t, -, -, -, rfl⟩ := h3
      exact fol_reducedW rfl (order_some _ _)
    · subst h3
      simp only [Raw.order, evalW]
      exact fol_last (built_followsW x h1) fun _ => ⟨_, rfl⟩
theorem builts_followsW {env : Env} {dct dc : DecCtx} {thing : Value} : ∀ (xs : List Raw) {Γ S : List Assignment}
    {es : List Expr}, BuiltList env dct Γ xs es →
    List.Forall₂ (fun L m => Follows thing S L m) (Raw.orders (S.map (·.name)) xs) (evalsW W env dc thing es)
  | [], Γ, S, es, h => by
    simp only [BuiltList] at h
    subst h; exact .nil
  | x :: xs, Γ, S, es, h => by
    simp only [BuiltList] at h
    obtain ⟨e, es', h1, h2, rfl⟩ := h
    exact .cons (built_followsW x h1) (builts_followsW xs h2)
theorem builtp_followsW {env : Env} {dct dc : DecCtx} {thing : Value} : ∀ (xs : List (Raw × Raw)) {Γ S : List Assignment}
    {es : List (Expr × Expr)}, BuiltPairs env dct Γ xs es →
    List.Forall₂ (fun L (e : M Value × M Value) => Follows thing S L e.1) (Raw.keyOrders (S.map (·.name)) xs)
      (evalPairsW W env dc thing es) ∧
    List.Forall₂ (fun L (e : M Value × M Value) => Follows thing S L e.2) (Raw.valueOrders (S.map (·.name)) xs)
      (evalPairsW W env dc thing es)
  | [], Γ, S, es, h => by
    simp only [BuiltPairs] at h
    subst h; exact ⟨.nil, .nil⟩
  | (k, v) :: xs, Γ, S, es, h => by
    simp only [BuiltPairs] at h
    obtain ⟨k', v', es', h1, h2, h3, rfl⟩ := h
    obtain ⟨i1, i2⟩ := builtp_followsW (dc := dc) (thing := thing) (S := S) xs h3
    exact ⟨.cons (built_followsW k h1) i1, .cons (built_followsW v h2) i2⟩
end


end

/-! ### Relations between evaluation in a world and in an environment -/

/-- a relation, between evaluation in a world and in an environment, respected by all steps of an evaluation -/
structure RelW (W : World) (env : Env) (dc : DecCtx) (R : {α : Type} → M α → M α → Prop) : Prop where
  lift : ∀ {α : Type} (x : Except Err α), R (M.lift x) (M.lift x)
  bind : ∀ {α β : Type} {m m' : M α} {f f' : α → M β}, R m m' → (∀ a, R (f a) (f' a)) → R (m >>= f) (m' >>= f')
  fuzzy : ∀ (s n : Bool) (a b : Value), R (opFuzzy env s n a b) (opFuzzy env s n a b)
  scope : ∀ {α : Type} (a : Assignment) {m m' : M α}, R m m' → R (M.withScope a m) (M.withScope a m')
  symbol : ∀ thing name rt b, R (evalSymbolW W env thing name rt b) (evalSymbol env thing name rt b)
  attr : ∀ o name, R (evalGetAttrW W env o name) (evalGetAttr env o name)
  call : ∀ ft rt f args, f.isCallable = true → R (evalCallW W env dc ft rt f args) (evalCall env dc ft rt f args)

section
variable {W : World} {env : Env} {dc : DecCtx} {R : {α : Type} → M α → M α → Prop} (hR : RelW W env dc R)
include hR

theorem RelW.pure {α : Type} (a : α) : R (Pure.pure a : M α) (Pure.pure a) := hR.lift (.ok a)

theorem RelW.throw {α : Type} (e : Err) : R (M.throw e : M α) (M.throw e) := hR.lift (.error e)

theorem RelW.ite {α : Type} {p : Prop} [Decidable p] {m m' n n' : M α}
    (h : p → R m m') (h' : ¬p → R n n') : R (if p then m else n) (if p then m' else n') := by
  split
  · exact h ‹_›
  · exact h' ‹_›

theorem RelW.evalBin (op : BinOp) {m m' n n' : M Value} (hm : R m m') (hn : R n n') :
    R (RE.evalBin env dc op m n) (RE.evalBin env dc op m' n') := by
  cases op with
  | add => exact hR.bind hm fun a => hR.bind hn fun b => hR.lift _
  | sub => exact hR.bind hm fun a => hR.bind hn fun b => hR.lift _
  | arith op =>
    exact hR.bind hm fun a => hR.bind (hR.lift _) fun _ => hR.bind hn fun b => hR.bind (hR.lift _) fun _ => hR.lift _
  | bit op =>
    refine hR.bind hm fun a => hR.bind (hR.lift _) fun ty => ?_
    refine hR.ite (fun _ => ?_) (fun _ => ?_)
    · exact hR.bind (hR.lift _) fun _ => hR.bind hn fun b => hR.lift _
    · cases a <;> first | exact hR.throw _ | exact hR.bind hn fun b => hR.lift _
  | shift op =>
    refine hR.bind hm fun a => hR.bind (hR.lift _) fun ty => ?_
    refine hR.ite (fun _ => ?_) (fun _ => ?_)
    · exact hR.bind (hR.lift _) fun _ => hR.bind hn fun b => hR.lift _
    · cases a <;> first | exact hR.throw _ | exact hR.bind hn fun b => hR.lift _
  | and => exact hR.bind hm fun a => hR.ite (fun _ => hR.bind hn fun b => hR.pure _) (fun _ => hR.pure _)
  | or => exact hR.bind hm fun a => hR.ite (fun _ => hR.pure _) (fun _ => hR.bind hn fun b => hR.pure _)
  | eq => exact hR.bind hm fun a => hR.bind hn fun b => hR.pure _
  | ne => exact hR.bind hm fun a => hR.bind hn fun b => hR.pure _
  | cmp op => exact hR.bind hm fun a => hR.bind hn fun b => hR.bind (hR.lift _) fun _ => hR.pure _
  | fuzzy s ng =>
    refine hR.bind hm fun a => ?_
    cases a <;> first
      | exact hR.throw _
      | exact hR.bind hn fun b => hR.fuzzy s ng _ b

theorem RelW.seqM {ms ms' : List (M Value)} (h : List.Forall₂ (fun m m' => R m m') ms ms') :
    R (RE.seqM ms) (RE.seqM ms') := by
  induction h with
  | nil => exact hR.pure _
  | cons h _ ih => exact hR.bind h fun v => hR.bind ih fun vs => hR.pure _

theorem RelW.setM (off : TzDb) {ms ms' : List (M Value)} (h : List.Forall₂ (fun m m' => R m m') ms ms')
    (acc : List Value) : R (RE.setM off acc ms) (RE.setM off acc ms') := by
  induction h generalizing acc with
  | nil => exact hR.pure _
  | cons h _ ih => exact hR.bind h fun v => hR.ite (fun _ => ih _) (fun _ => hR.throw _)

theorem RelW.mapValsM {ps ps' : List (Value × M Value)} (h : RelVals R ps ps') :
    R (RE.mapValsM ps) (RE.mapValsM ps') := by
  induction h with
  | nil => exact hR.pure _
  | @cons p p' ps ps' hp h ih =>
    obtain ⟨k1, v1⟩ := p
    obtain ⟨k2, v2⟩ := p'
    obtain ⟨he, hv2⟩ := hp
    simp only at he hv2
    subst he
    exact hR.bind hv2 fun v => hR.bind ih fun vs => hR.pure _

theorem RelW.mapM (off : TzDb) {ps ps' : List (M Value × M Value)} (h : RelPairs R ps ps')
    {acc acc' : List (Value × M Value)} (ha : RelVals R acc acc') :
    R (RE.mapKeysM off acc ps >>= RE.mapValsM) (RE.mapKeysM off acc' ps' >>= RE.mapValsM) := by
  have ethrow : ∀ {α β : Type} (e : Err) (f : α → M β), (M.throw e >>= f) = M.throw e := by intros; rfl
  induction h generalizing acc acc' with
  | nil =>
    have e : ∀ a : List (Value × M Value), (RE.mapKeysM off a [] >>= RE.mapValsM) = RE.mapValsM a := by
      intro a; simp only [mapKeysM, pure_bind]
    rw [e, e]
    exact hR.mapValsM ha
  | @cons p p' ps ps' hp h ih =>
    obtain ⟨k, v⟩ := p
    obtain ⟨k', v'⟩ := p'
    obtain ⟨hk, hv⟩ := hp
    simp only at hk hv
    simp only [mapKeysM, bind_assoc]
    refine hR.bind hk fun key => hR.bind (hR.lift _) fun kt => ?_
    by_cases h1 : (kt.isCompound && !kt.isArray) = true
    · simp only [h1, if_true]
      rw [ethrow]
      exact hR.throw _
    · simp only [h1]
      by_cases h2 : key.hashable = true
      · simp only [h2, if_true]
        exact ih (mapInsert_rel off ha key hv)
      · simp only [h2]
        simp only [Bool.false_eq_true, if_false]
        rw [ethrow]
        exact hR.throw _

theorem RelW.evalSlice (v : Value) {a a' b b' : M Value} (ha : R a a') (hb : R b b') :
    R (RE.evalSlice env v a b) (RE.evalSlice env v a' b') :=
  hR.bind ha fun _ => hR.bind (hR.lift _) fun _ => hR.bind hb fun _ => hR.bind (hR.lift _) fun _ => hR.bind (hR.lift _) fun _ => hR.pure _

theorem RelW.compM (var : String) {k k' r r' : M Value} (hk : R k k') (hr : R r r') (xs : List Value) :
    R (RE.compM var k r xs) (RE.compM var k' r' xs) := by
  induction xs with
  | nil => exact hR.pure _
  | cons x xs ih =>
    refine hR.bind (hR.scope _ ?_) fun o => hR.bind ih fun vs => hR.pure _
    exact hR.bind hk fun a => hR.ite (fun _ => hR.bind hr fun v => hR.pure _) (fun _ => hR.pure _)


variable (thing : Value)

mutual
theorem evalW_relW : ∀ e : Expr, R (evalW W env dc thing e) (eval env dc thing e)
  | .lit v _ => by simp only [evalW, eval]; exact hR.pure v
  | .array xs => by
    simp only [evalW, eval]
    exact hR.bind (hR.seqM (evalsW_relW xs)) fun _ => hR.pure _
  | .set xs => by
    simp only [evalW, eval]
    exact hR.bind (hR.setM _ (evalsW_relW xs) []) fun _ => hR.pure _
  | .mapping kvs => by
    simp only [evalW, eval]
    rw [← bind_assoc, ← bind_assoc]
    exact hR.bind (hR.mapM _ (evalPairsW_relW kvs) .nil) fun _ => hR.pure _
  | .bin op l r => by
    simp only [evalW, eval]
    exact hR.evalBin op (evalW_relW l) (evalW_relW r)
  | .comp result var iterable cond => by
    simp only [evalW, eval]
    refine hR.bind (evalW_relW iterable) fun it => hR.bind (hR.lift _) fun ty => hR.ite (fun _ => ?_) (fun _ => hR.throw _)
    exact hR.bind (hR.lift _) fun xs => hR.bind (hR.compM var (evalW_relW cond) (evalW_relW result) xs) fun _ => hR.pure _
  | .contains l r => by
    simp only [evalW, eval]
    exact hR.bind (evalW_relW l) fun _ => hR.bind (hR.lift _) fun _ => hR.bind (evalW_relW r) fun _ =>
      hR.bind (hR.lift _) fun _ => hR.pure _
  | .getAttr obj name safe => by
    simp only [evalW, eval]
    exact hR.bind (evalW_relW obj) fun _ => hR.ite (fun _ => hR.pure _) (fun _ => hR.attr _ name)
  | .getItem l r safe => by
    simp only [evalW, eval]
    refine hR.bind (evalW_relW l) fun cv => ?_
    refine hR.ite (fun _ => hR.ite (fun _ => hR.pure _) (fun _ => hR.throw _)) (fun _ => ?_)
    refine hR.bind (evalW_relW r) fun iv => ?_
    refine hR.bind (hR.lift _) fun o => ?_
    cases o
    · exact hR.ite (fun _ => hR.pure _) (fun _ => hR.throw _)
    · exact hR.pure _
  | .getSlice l r r2 safe => by
    simp only [evalW, eval]
    refine hR.bind (evalW_relW l) fun cv => ?_
    exact hR.ite (fun _ => hR.ite (fun _ => hR.pure _) (fun _ => hR.throw _)) (fun _ =>
      hR.evalSlice cv (evalW_relW r) (evalW_relW r2))
  | .sym name rt b => by
    simp only [evalW, eval]
    exact hR.symbol thing name rt b
  | .call f args => by
    simp only [evalW, eval]
    refine hR.bind (evalW_relW f) fun fv => ?_
    refine hR.ite (fun h => ?_) (fun _ => hR.throw _)
    exact hR.bind (hR.seqM (evalsW_relW args)) fun vs => hR.call _ _ fv vs h
  | .tern l r r2 => by
    simp only [evalW, eval]
    exact hR.bind (evalW_relW l) fun v => hR.ite (fun _ => evalW_relW r) (fun _ => evalW_relW r2)
  | .not e => by
    simp only [evalW, eval]
    exact hR.bind (evalW_relW e) fun _ => hR.pure _
  | .neg e => by
    simp only [evalW, eval]
    exact hR.bind (evalW_relW e) fun _ => hR.lift _
theorem evalsW_relW : ∀ es : List Expr, List.Forall₂ (fun m m' => R m m') (evalsW W env dc thing es) (evals env dc thing es)
  | [] => .nil
  | e :: es => .cons (evalW_relW e) (evalsW_relW es)
theorem evalPairsW_relW : ∀ es : List (Expr × Expr), RelPairs R (evalPairsW W env dc thing es) (evalPairs env dc thing es)
  | [] => .nil
  | (k, v) :: es => .cons ⟨evalW_relW k, evalW_relW v⟩ (evalPairsW_relW es)
end
end

/-! ### Answers -/

/-- **Specification.** Every question asked between the histories `l` and `l'` is answered in `env` as the world answered it. -/
def World.Agrees (W : World) (env : Env) (dc : DecCtx) (l l' : List Event) : Prop :=
  ∀ h q, l <+: h → h ++ [q] <+: l' →
    match q with
    | .resolve o n => W.resolve h o n = env.resolver o n
    | .call (.str name) [] => ∀ g, W.builtin h g name = builtinValue env g name
    | .call f args => W.call h dc f args = callBasic env dc f args
    | .matched _ => True

theorem World.Agrees.first {W : World} {env : Env} {dc : DecCtx} {l t l' : List Event} (h : W.Agrees env dc l l')
    (ht : t <+: l') : W.Agrees env dc l t := fun h' q h1 h2 => h h' q h1 (h2.trans ht)

theorem World.Agrees.second {W : World} {env : Env} {dc : DecCtx} {l t l' : List Event} (h : W.Agrees env dc l l')
    (ht : l <+: t) : W.Agrees env dc t l' := fun h' q h1 h2 => h h' q (ht.trans h1) h2

/-- the states differ in nothing but the log -/
structure St.Alike (s t : St) : Prop where
  scopes : s.scopes = t.scopes
  groups : s.groups = t.groups
  symbols : s.symbols = t.symbols

/-- On the left in a world, on the right in an environment: the same, if the environment answers as the world did. -/
structure SimW (W : World) (env : Env) (dc : DecCtx) {α : Type} (m m' : M α) : Prop where
  grows : ∀ s : St, s.log <+: (m s).2.log
  run : ∀ s t : St, s.Alike t → W.Agrees env dc s.log (m s).2.log → (m s).1 = (m' t).1 ∧ (m s).2.Alike (m' t).2

section
variable {W : World} {env : Env} {dc : DecCtx}

theorem SimW.lift {α : Type} (x : Except Err α) : SimW W env dc (M.lift x) (M.lift x) :=
  ⟨fun s => List.prefix_refl _, fun s t h _ => ⟨rfl, h⟩⟩

theorem SimW.bind {α β : Type} {m m' : M α} {f f' : α → M β} (hm : SimW W env dc m m') (hf : ∀ a, SimW W env dc (f a) (f' a)) :
    SimW W env dc (m >>= f) (m' >>= f') := by
  refine ⟨fun s => ?_, fun s t hst ha => ?_⟩
  · have h1 := hm.grows s
    rw [M.bind_apply]
    rcases h : m s with ⟨x, s1⟩
    rw [h] at h1
    cases x with
    | error e => exact h1
    | ok a => exact h1.trans ((hf a).grows s1)
  · have h1 := hm.grows s
    have h2 := hm.run s t hst
    rw [M.bind_apply] at ha ⊢
    rw [M.bind_apply]
    rcases h : m s with ⟨x, s1⟩
    rcases h' : m' t with ⟨x', t1⟩
    rw [h, h'] at h2
    rw [h] at h1 ha
    cases x with
    | error e =>
      obtain ⟨h3, h4⟩ := h2 ha
      simp only at h3 h4
      subst h3
      exact ⟨rfl, h4⟩
    | ok a =>
      obtain ⟨h3, h4⟩ := h2 (ha.first ((hf a).grows s1))
      simp only at h3 h4
      subst h3
      exact (hf a).run s1 t1 h4 (ha.second h1)

theorem SimW.catch {α : Type} {m m' : M α} {f f' : Err → M α} (hm : SimW W env dc m m') (hf : ∀ e, SimW W env dc (f e) (f' e)) :
    SimW W env dc (M.catchErr m f) (M.catchErr m' f') := by
  refine ⟨fun s => ?_, fun s t hst ha => ?_⟩
  · have h1 := hm.grows s
    unfold M.catchErr
    rcases h : m s with ⟨x, s1⟩
    rw [h] at h1
    cases x with
    | ok a => exact h1
    | error e => exact h1.trans ((hf e).grows s1)
  · have h1 := hm.grows s
    have h2 := hm.run s t hst
    unfold M.catchErr at ha ⊢
    rcases h : m s with ⟨x, s1⟩
    rcases h' : m' t with ⟨x', t1⟩
    rw [h, h'] at h2
    rw [h] at h1 ha
    cases x with
    | ok a =>
      obtain ⟨h3, h4⟩ := h2 ha
      simp only at h3 h4
      subst h3
      exact ⟨rfl, h4⟩
    | error e =>
      obtain ⟨h3, h4⟩ := h2 (ha.first ((hf e).grows s1))
      simp only at h3 h4
      subst h3
      exact (hf e).run s1 t1 h4 (ha.second h1)

theorem SimW.modify (f : St → St) (hf : ∀ s t : St, s.Alike t → (f s).Alike (f t)) (hl : ∀ s : St, s.log <+: (f s).log) :
    SimW W env dc (M.modify f) (M.modify f) :=
  ⟨hl, fun s t h _ => ⟨rfl, hf s t h⟩⟩

theorem SimW.scope {α : Type} (a : Assignment) {m m' : M α} (hm : SimW W env dc m m') :
    SimW W env dc (M.withScope a m) (M.withScope a m') := by
  refine ⟨fun s => hm.grows { s with scopes := s.scopes ++ [a] }, fun s t h ha => ?_⟩
  obtain ⟨h1, h2⟩ := hm.run { s with scopes := s.scopes ++ [a] } { t with scopes := t.scopes ++ [a] }
    ⟨by simp [h.scopes], h.groups, h.symbols⟩ ha
  exact ⟨h1, ⟨congrArg List.dropLast h2.scopes, h2.groups, h2.symbols⟩⟩

theorem SimW.fuzzy (s n : Bool) (a b : Value) : SimW W env dc (opFuzzy env s n a b) (opFuzzy env s n a b) := by
  have hl : ∀ {x : Except Err Value}, SimW W env dc (M.lift x) (M.lift x) := SimW.lift _
  unfold opFuzzy
  split
  · split
    · split
      · split
        · refine SimW.bind (m := recordMatch _) (m' := recordMatch _) (SimW.modify _ ?_ ?_) fun _ => SimW.lift (.ok _)
          · exact fun s t h => ⟨h.scopes, rfl, h.symbols⟩
          · exact fun s => List.prefix_append _ _
        · exact SimW.lift (.ok _)
      · exact SimW.lift (.ok _)
    · exact SimW.lift (.error _)
  · split <;> exact SimW.lift (.ok _)
  · exact SimW.lift (.error _)

theorem ctxResolve_simW (thing : Value) (name : String) (b : Bool) :
    SimW W env dc (ctxResolveW W thing name b) (ctxResolve env thing name b) := by
  refine ⟨fun s => ?_, fun s t h ha => ?_⟩
  · unfold ctxResolveW
    cases b with
    | true => exact List.prefix_append _ _
    | false =>
      cases hs : scopeLookup s.scopes name with
      | some a => simp [hs]
      | none => simp [hs]
  · unfold ctxResolveW at ha ⊢
    unfold ctxResolve
    cases b with
    | true =>
      simp only [if_true] at ha ⊢
      have := ha s.log (.read name) (List.prefix_refl _) (List.prefix_refl _)
      simp only [Event.read] at this
      have hg : builtinValue env t.groups name = builtinValue env s.groups name := by rw [h.groups]
      rw [this s.groups, hg]
      cases builtinValue env s.groups name <;> exact ⟨rfl, h.scopes, h.groups, h.symbols⟩
    | false =>
      simp only [Bool.false_eq_true, if_false] at ha ⊢
      have ht : scopeLookup t.scopes name = scopeLookup s.scopes name := by rw [h.scopes]
      rw [ht]
      cases hs : scopeLookup s.scopes name with
      | some a => exact ⟨rfl, h.scopes, h.groups, h.symbols⟩
      | none =>
        rw [hs] at ha
        have := ha s.log (.resolve thing name) (List.prefix_refl _) (List.prefix_refl _)
        exact ⟨this, h.scopes, h.groups, h.symbols⟩

theorem evalSymbol_simW (thing : Value) (name : String) (rt : DataType) (b : Bool) :
    SimW W env dc (evalSymbolW W env thing name rt b) (evalSymbol env thing name rt b) := by
  unfold evalSymbolW evalSymbol
  refine SimW.bind (SimW.catch (ctxResolve_simW ..) fun e => ?_) fun v => SimW.lift _
  cases isSymErr e <;> cases env.defaultValue <;> first | exact SimW.lift (.ok _) | exact SimW.lift (.error _)

theorem evalGetAttr_simW (o : Value) (name : String) : SimW W env dc (evalGetAttrW W env o name) (evalGetAttr env o name) := by
  have hc : SimW W env dc (ctxResolveW W o name false) (ctxResolve env o name false) := ctxResolve_simW o name false
  have e1 : evalGetAttrW W env o name = (match resolveAttr env o name with
      | .ok v => Pure.pure (newValue env v)
      | .error e => if isAttrErr e then
          M.catchErr (ctxResolveW W o name false >>= fun v => Pure.pure (newValue env v)) fun e' =>
            if isSymErr e' then (match env.defaultValue with
              | some d => Pure.pure (newValue env d)
              | none => M.throw e) else M.throw e'
        else M.throw e) := by
    funext s
    unfold evalGetAttrW
    cases resolveAttr env o name with
    | ok v => rfl
    | error e =>
      simp only
      split
      · simp only [M.catchErr, M.bind_apply]
        rcases ctxResolveW W o name false s with ⟨_ | v, s'⟩
        · simp only
          split
          · cases env.defaultValue <;> rfl
          · rfl
        · rfl
      · rfl
  have e2 : evalGetAttr env o name = (match resolveAttr env o name with
      | .ok v => Pure.pure (newValue env v)
      | .error e => if isAttrErr e then
          M.catchErr (ctxResolve env o name false >>= fun v => Pure.pure (newValue env v)) fun e' =>
            if isSymErr e' then (match env.defaultValue with
              | some d => Pure.pure (newValue env d)
              | none => M.throw e) else M.throw e'
        else M.throw e) := by
    funext s
    unfold evalGetAttr
    cases resolveAttr env o name with
    | ok v => rfl
    | error e =>
      simp only
      split
      · simp only [M.catchErr, M.bind_apply]
        rcases ctxResolve env o name false s with ⟨_ | v, s'⟩
        · simp only
          split
          · cases env.defaultValue <;> rfl
          · rfl
        · rfl
      · rfl
  rw [e1, e2]
  split
  · exact SimW.lift (.ok _)
  · split
    · refine SimW.catch (SimW.bind hc fun v => SimW.lift (.ok _)) fun e' => ?_
      split
      · split
        · exact SimW.lift (.ok _)
        · exact SimW.lift (.error _)
      · exact SimW.lift (.error _)
    · exact SimW.lift (.error _)

theorem callLogged_simW {f : Value} {args : List Value} (h : f.isCallable = true ∨ args ≠ []) :
    SimW W env dc (callLoggedW W dc f args) (callLogged env dc f args) := by
  refine ⟨fun s => List.prefix_append _ _, fun s t hst ha => ?_⟩
  have := ha s.log (.call f args) (List.prefix_refl _) (List.prefix_refl _)
  unfold callLoggedW callLogged
  refine ⟨?_, hst.scopes, hst.groups, hst.symbols⟩
  simp only
  split at this
  · rename_i heq; cases heq
  · rename_i heq
    cases heq
    rcases h with h | h
    · simp [Value.isCallable] at h
    · exact (h rfl).elim
  · rename_i heq; cases heq; exact this
  · rename_i heq; cases heq

theorem mapCalls_simW (f : Value) : ∀ xs, SimW W env dc (mapCallsW W dc f xs) (mapCalls env dc f xs)
  | [] => SimW.lift (.ok _)
  | x :: xs => by
    unfold mapCallsW mapCalls
    exact SimW.bind (callLogged_simW (.inr (by simp))) fun y => SimW.bind (mapCalls_simW f xs) fun ys => SimW.lift (.ok _)

theorem filterCalls_simW (f : Value) : ∀ xs, SimW W env dc (filterCallsW W dc f xs) (filterCalls env dc f xs)
  | [] => SimW.lift (.ok _)
  | x :: xs => by
    unfold filterCallsW filterCalls
    exact SimW.bind (callLogged_simW (.inr (by simp))) fun y => SimW.bind (filterCalls_simW f xs) fun ys => SimW.lift (.ok _)

theorem evalCall_simW (ft rt : DataType) (f : Value) (args : List Value) (hf : f.isCallable = true) :
    SimW W env dc (evalCallW W env dc ft rt f args) (evalCall env dc ft rt f args) := by
  have hl : ∀ (f : Value) (args : List Value), SimW W env dc (M.modify fun s => { s with log := s.log ++ [.call f args] })
      (M.modify fun s => { s with log := s.log ++ [.call f args] }) := fun f args =>
    SimW.modify _ (fun s t h => ⟨h.scopes, h.groups, h.symbols⟩) fun s => List.prefix_append _ _
  have hc : SimW W env dc (callFnW W env dc f args) (callFn env dc f args) := by
    unfold callFnW callFn
    split
    · exact SimW.bind (hl _ _) fun _ => SimW.bind (SimW.lift _) fun xs => SimW.bind (mapCalls_simW _ xs) fun _ => SimW.lift (.ok _)
    · exact SimW.bind (hl _ _) fun _ => SimW.bind (SimW.lift _) fun xs => SimW.bind (filterCalls_simW _ xs) fun _ => SimW.lift (.ok _)
    · rename_i h1 h2
      have := callLogged_simW (W := W) (env := env) (dc := dc) (args := args) (.inl hf)
      split
      · exact (h1 _ _ rfl rfl).elim
      · exact (h2 _ _ rfl rfl).elim
      · exact this
  have hfin : SimW W env dc (finishCallW W env dc rt f args) (finishCall env dc rt f args) := by
    unfold finishCallW finishCall
    refine SimW.bind (SimW.catch hc fun _ => SimW.lift (.error _)) fun r => SimW.bind (SimW.lift _) fun r =>
      SimW.bind (SimW.lift _) fun t => ?_
    split
    · exact SimW.lift (.ok _)
    · exact SimW.lift (.error _)
  unfold evalCallW evalCall
  split
  · exact hfin
  · exact SimW.bind (SimW.lift _) fun _ => hfin

theorem simW_relW : RelW W env dc (@SimW W env dc) where
  lift := SimW.lift
  bind := SimW.bind
  fuzzy := SimW.fuzzy
  scope := SimW.scope
  symbol := evalSymbol_simW
  attr := evalGetAttr_simW
  call := evalCall_simW

end

/-! ### Two worlds -/

/-- a relation, between evaluation in two worlds, respected by all steps of an evaluation -/
structure RelWW (W W2 : World) (env : Env) (dc : DecCtx) (R : {α : Type} → M α → M α → Prop) : Prop where
  lift : ∀ {α : Type} (x : Except Err α), R (M.lift x) (M.lift x)
  bind : ∀ {α β : Type} {m m' : M α} {f f' : α → M β}, R m m' → (∀ a, R (f a) (f' a)) → R (m >>= f) (m' >>= f')
  fuzzy : ∀ (s n : Bool) (a b : Value), R (opFuzzy env s n a b) (opFuzzy env s n a b)
  scope : ∀ {α : Type} (a : Assignment) {m m' : M α}, R m m' → R (M.withScope a m) (M.withScope a m')
  symbol : ∀ thing name rt b, R (evalSymbolW W env thing name rt b) (evalSymbolW W2 env thing name rt b)
  attr : ∀ o name, R (evalGetAttrW W env o name) (evalGetAttrW W2 env o name)
  call : ∀ ft rt f args, f.isCallable = true → R (evalCallW W env dc ft rt f args) (evalCallW W2 env dc ft rt f args)

section
variable {W W2 : World} {env : Env} {dc : DecCtx} {R : {α : Type} → M α → M α → Prop} (hR : RelWW W W2 env dc R)
include hR

theorem RelWW.pure {α : Type} (a : α) : R (Pure.pure a : M α) (Pure.pure a) := hR.lift (.ok a)

theorem RelWW.throw {α : Type} (e : Err) : R (M.throw e : M α) (M.throw e) := hR.lift (.error e)

theorem RelWW.ite {α : Type} {p : Prop} [Decidable p] {m m' n n' : M α}
    (h : p → R m m') (h' : ¬p → R n n') : R (if p then m else n) (if p then m' else n') := by
  split
  · exact h ‹_›
  · exact h' ‹_›

theorem RelWW.evalBin (op : BinOp) {m m' n n' : M Value} (hm : R m m') (hn : R n n') :
    R (RE.evalBin env dc op m n) (RE.evalBin env dc op m' n') := by
  cases op with
  | add => exact hR.bind hm fun a => hR.bind hn fun b => hR.lift _
  | sub => exact hR.bind hm fun a => hR.bind hn fun b => hR.lift _
  | arith op =>
    exact hR.bind hm fun a => hR.bind (hR.lift _) fun _ => hR.bind hn fun b => hR.bind (hR.lift _) fun _ => hR.lift _
  | bit op =>
    refine hR.bind hm fun a => hR.bind (hR.lift _) fun ty => ?_
    refine hR.ite (fun _ => ?_) (fun _ => ?_)
    · exact hR.bind (hR.lift _) fun _ => hR.bind hn fun b => hR.lift _
    · cases a <;> first | exact hR.throw _ | exact hR.bind hn fun b => hR.lift _
  | shift op =>
    refine hR.bind hm fun a => hR.bind (hR.lift _) fun ty => ?_
    refine hR.ite (fun _ => ?_) (fun _ => ?_)
    · exact hR.bind (hR.lift _) fun _ => hR.bind hn fun b => hR.lift _
    · cases a <;> first | exact hR.throw _ | exact hR.bind hn fun b => hR.lift _
  | and => exact hR.bind hm fun a => hR.ite (fun _ => hR.bind hn fun b => hR.pure _) (fun _ => hR.pure _)
  | or => exact hR.bind hm fun a => hR.ite (fun _ => hR.pure _) (fun _ => hR.bind hn fun b => hR.pure _)
  | eq => exact hR.bind hm fun a => hR.bind hn fun b => hR.pure _
  | ne => exact hR.bind hm fun a => hR.bind hn fun b => hR.pure _
  | cmp op => exact hR.bind hm fun a => hR.bind hn fun b => hR.bind (hR.lift _) fun _ => hR.pure _
  | fuzzy s ng =>
    refine hR.bind hm fun a => ?_
    cases a <;> first
      | exact hR.throw _
      | exact hR.bind hn fun b => hR.fuzzy s ng _ b

theorem RelWW.seqM {ms ms' : List (M Value)} (h : List.Forall₂ (fun m m' => R m m') ms ms') :
    R (RE.seqM ms) (RE.seqM ms') := by
  induction h with
  | nil => exact hR.pure _
  | cons h _ ih => exact hR.bind h fun v => hR.bind ih fun vs => hR.pure _

theorem RelWW.setM (off : TzDb) {ms ms' : List (M Value)} (h : List.Forall₂ (fun m m' => R m m') ms ms')
    (acc : List Value) : R (RE.setM off acc ms) (RE.setM off acc ms') := by
  induction h generalizing acc with
  | nil => exact hR.pure _
  | cons h _ ih => exact hR.bind h fun v => hR.ite (fun _ => ih _) (fun _ => hR.throw _)

theorem RelWW.mapValsM {ps ps' : List (Value × M Value)} (h : RelVals R ps ps') :
    R (RE.mapValsM ps) (RE.mapValsM ps') := by
  induction h with
  | nil => exact hR.pure _
  | @cons p p' ps ps' hp h ih =>
    obtain ⟨k1, v1⟩ := p
    obtain ⟨k2, v2⟩ := p'
    obtain ⟨he, hv2⟩ := hp
    simp only at he hv2
    subst he
    exact hR.bind hv2 fun v => hR.bind ih fun vs => hR.pure _

theorem RelWW.mapM (off : TzDb) {ps ps' : List (M Value × M Value)} (h : RelPairs R ps ps')
    {acc acc' : List (Value × M Value)} (ha : RelVals R acc acc') :
    R (RE.mapKeysM off acc ps >>= RE.mapValsM) (RE.mapKeysM off acc' ps' >>= RE.mapValsM) := by
  have ethrow : ∀ {α β : Type} (e : Err) (f : α → M β), (M.throw e >>= f) = M.throw e := by intros; rfl
  induction h generalizing acc acc' with
  | nil =>
    have e : ∀ a : List (Value × M Value), (RE.mapKeysM off a [] >>= RE.mapValsM) = RE.mapValsM a := by
      intro a; simp only [mapKeysM, pure_bind]
    rw [e, e]
    exact hR.mapValsM ha
  | @cons p p' ps ps' hp h ih =>
    obtain ⟨k, v⟩ := p
    obtain ⟨k', v'⟩ := p'
    obtain ⟨hk, hv⟩ := hp
    simp only at hk hv
    simp only [mapKeysM, bind_assoc]
    refine hR.bind hk fun key => hR.bind (hR.lift _) fun kt => ?_
    by_cases h1 : (kt.isCompound && !kt.isArray) = true
    · simp only [h1, if_true]
      rw [ethrow]
      exact hR.throw _
    · simp only [h1]
      by_cases h2 : key.hashable = true
      · simp only [h2, if_true]
        exact ih (mapInsert_rel off ha key hv)
      · simp only [h2]
        simp only [Bool.false_eq_true, if_false]
        rw [ethrow]
        exact hR.throw _

theorem RelWW.evalSlice (v : Value) {a a' b b' : M Value} (ha : R a a') (hb : R b b') :
    R (RE.evalSlice env v a b) (RE.evalSlice env v a' b') :=
  hR.bind ha fun _ => hR.bind (hR.lift _) fun _ => hR.bind hb fun _ => hR.bind (hR.lift _) fun _ => hR.bind (hR.lift _) fun _ => hR.pure _

theorem RelWW.compM (var : String) {k k' r r' : M Value} (hk : R k k') (hr : R r r') (xs : List Value) :
    R (RE.compM var k r xs) (RE.compM var k' r' xs) := by
  induction xs with
  | nil => exact hR.pure _
  | cons x xs ih =>
    refine hR.bind (hR.scope _ ?_) fun o => hR.bind ih fun vs => hR.pure _
    exact hR.bind hk fun a => hR.ite (fun _ => hR.bind hr fun v => hR.pure _) (fun _ => hR.pure _)


variable (thing : Value)

mutual
theorem evalW_relWW : ∀ e : Expr, R (evalW W env dc thing e) (evalW W2 env dc thing e)
  | .lit v _ => by simp only [evalW]; exact hR.pure v
  | .array xs => by
    simp only [evalW]
    exact hR.bind (hR.seqM (evalsW_relWW xs)) fun _ => hR.pure _
  | .set xs => by
    simp only [evalW]
    exact hR.bind (hR.setM _ (evalsW_relWW xs) []) fun _ => hR.pure _
  | .mapping kvs => by
    simp only [evalW]
    rw [← bind_assoc, ← bind_assoc]
    exact hR.bind (hR.mapM _ (evalPairsW_relWW kvs) .nil) fun _ => hR.pure _
  | .bin op l r => by
    simp only [evalW]
    exact hR.evalBin op (evalW_relWW l) (evalW_relWW r)
  | .comp result var iterable cond => by
    simp only [evalW]
    refine hR.bind (evalW_relWW iterable) fun it => hR.bind (hR.lift _) fun ty => hR.ite (fun _ => ?_) (fun _ => hR.throw _)
    exact hR.bind (hR.lift _) fun xs => hR.bind (hR.compM var (evalW_relWW cond) (evalW_relWW result) xs) fun _ => hR.pure _
  | .contains l r => by
    simp only [evalW]
    exact hR.bind (evalW_relWW l) fun _ => hR.bind (hR.lift _) fun _ => hR.bind (evalW_relWW r) fun _ =>
      hR.bind (hR.lift _) fun _ => hR.pure _
  | .getAttr obj name safe => by
    simp only [evalW]
    exact hR.bind (evalW_relWW obj) fun _ => hR.ite (fun _ => hR.pure _) (fun _ => hR.attr _ name)
  | .getItem l r safe => by
    simp only [evalW]
    refine hR.bind (evalW_relWW l) fun cv => ?_
    refine hR.ite (fun _ => hR.ite (fun _ => hR.pure _) (fun _ => hR.throw _)) (fun _ => ?_)
    refine hR.bind (evalW_relWW r) fun iv => ?_
    refine hR.bind (hR.lift _) fun o => ?_
    cases o
    · exact hR.ite (fun _ => hR.pure _) (fun _ => hR.throw _)
    · exact hR.pure _
  | .getSlice l r r2 safe => by
    simp only [evalW]
    refine hR.bind (evalW_relWW l) fun cv => ?_
    exact hR.ite (fun _ => hR.ite (fun _ => hR.pure _) (fun _ => hR.throw _)) (fun _ =>
      hR.evalSlice cv (evalW_relWW r) (evalW_relWW r2))
  | .sym name rt b => by
    simp only [evalW]
    exact hR.symbol thing name rt b
  | .call f args => by
    simp only [evalW]
    refine hR.bind (evalW_relWW f) fun fv => ?_
    refine hR.ite (fun h => ?_) (fun _ => hR.throw _)
    exact hR.bind (hR.seqM (evalsW_relWW args)) fun vs => hR.call _ _ fv vs h
  | .tern l r r2 => by
    simp only [evalW]
    exact hR.bind (evalW_relWW l) fun v => hR.ite (fun _ => evalW_relWW r) (fun _ => evalW_relWW r2)
  | .not e => by
    simp only [evalW]
    exact hR.bind (evalW_relWW e) fun _ => hR.pure _
  | .neg e => by
    simp only [evalW]
    exact hR.bind (evalW_relWW e) fun _ => hR.lift _
theorem evalsW_relWW : ∀ es : List Expr, List.Forall₂ (fun m m' => R m m') (evalsW W env dc thing es) (evalsW W2 env dc thing es)
  | [] => .nil
  | e :: es => .cons (evalW_relWW e) (evalsW_relWW es)
theorem evalPairsW_relWW : ∀ es : List (Expr × Expr), RelPairs R (evalPairsW W env dc thing es) (evalPairsW W2 env dc thing es)
  | [] => .nil
  | (k, v) :: es => .cons ⟨evalW_relWW k, evalW_relWW v⟩ (evalPairsW_relWW es)
end
end


/-- **Specification.** Every question asked between the histories `l` and `l'` is answered in the same way by both worlds. -/
def World.Same (W W2 : World) (dc : DecCtx) (l l' : List Event) : Prop :=
  ∀ h q, l <+: h → h ++ [q] <+: l' →
    match q with
    | .resolve o n => W.resolve h o n = W2.resolve h o n
    | .call (.str name) [] => ∀ g, W.builtin h g name = W2.builtin h g name
    | .call f args => W.call h dc f args = W2.call h dc f args
    | .matched _ => True

theorem World.Same.first {W W2 : World} {dc : DecCtx} {l t l' : List Event} (h : W.Same W2 dc l l')
    (ht : t <+: l') : W.Same W2 dc l t := fun h' q h1 h2 => h h' q h1 (h2.trans ht)

theorem World.Same.second {W W2 : World} {dc : DecCtx} {l t l' : List Event} (h : W.Same W2 dc l l')
    (ht : l <+: t) : W.Same W2 dc t l' := fun h' q h1 h2 => h h' q (ht.trans h1) h2

/-- the same, if the worlds give the same answers -/
structure SameW (W W2 : World) (dc : DecCtx) {α : Type} (m m' : M α) : Prop where
  grows : ∀ s : St, s.log <+: (m s).2.log
  run : ∀ s : St, W.Same W2 dc s.log (m s).2.log → m s = m' s

section
variable {W W2 : World} {env : Env} {dc : DecCtx}

theorem SameW.refl {α : Type} {m : M α} (h : ∀ s : St, s.log <+: (m s).2.log) : SameW W W2 dc m m := ⟨h, fun _ _ => rfl⟩

theorem SameW.lift {α : Type} (x : Except Err α) : SameW W W2 dc (M.lift x) (M.lift x) := .refl fun s => List.prefix_refl _

theorem SameW.bind {α β : Type} {m m' : M α} {f f' : α → M β} (hm : SameW W W2 dc m m') (hf : ∀ a, SameW W W2 dc (f a) (f' a)) :
    SameW W W2 dc (m >>= f) (m' >>= f') := by
  refine ⟨fun s => ?_, fun s ha => ?_⟩
  · have h1 := hm.grows s
    rw [M.bind_apply]
    rcases h : m s with ⟨x, s1⟩
    rw [h] at h1
    cases x with
    | error e => exact h1
    | ok a => exact h1.trans ((hf a).grows s1)
  · have h1 := hm.grows s
    have h2 := hm.run s
    rw [M.bind_apply] at ha ⊢
    rw [M.bind_apply]
    rcases h : m s with ⟨x, s1⟩
    rw [h] at h1 h2 ha
    cases x with
    | error e => rw [← h2 ha]
    | ok a =>
      rw [← h2 (ha.first ((hf a).grows s1))]
      exact (hf a).run s1 (ha.second h1)

theorem SameW.catch {α : Type} {m m' : M α} {f : Err → M α} (hm : SameW W W2 dc m m') (hf : ∀ e, SameW W W2 dc (f e) (f e)) :
    SameW W W2 dc (M.catchErr m f) (M.catchErr m' f) := by
  refine ⟨fun s => ?_, fun s ha => ?_⟩
  · have h1 := hm.grows s
    unfold M.catchErr
    rcases h : m s with ⟨x, s1⟩
    rw [h] at h1
    cases x with
    | ok a => exact h1
    | error e => exact h1.trans ((hf e).grows s1)
  · have h2 := hm.run s
    unfold M.catchErr at ha ⊢
    rcases h : m s with ⟨x, s1⟩
    rw [h] at h2 ha
    cases x with
    | ok a => rw [← h2 ha]
    | error e => rw [← h2 (ha.first ((hf e).grows s1))]

theorem SameW.scope {α : Type} (a : Assignment) {m m' : M α} (hm : SameW W W2 dc m m') :
    SameW W W2 dc (M.withScope a m) (M.withScope a m') := by
  refine ⟨fun s => hm.grows { s with scopes := s.scopes ++ [a] }, fun s ha => ?_⟩
  have := hm.run { s with scopes := s.scopes ++ [a] } ha
  simp only [M.withScope, this]

theorem SameW.modify {f : St → St} (hl : ∀ s : St, s.log <+: (f s).log) : SameW W W2 dc (M.modify f) (M.modify f) := .refl hl

theorem ctxResolve_sameW (thing : Value) (name : String) (b : Bool) :
    SameW W W2 dc (ctxResolveW W thing name b) (ctxResolveW W2 thing name b) := by
  refine ⟨fun s => ?_, fun s ha => ?_⟩
  · unfold ctxResolveW
    cases b with
    | true => exact List.prefix_append _ _
    | false =>
      cases hs : scopeLookup s.scopes name with
      | some a => simp [hs]
      | none => simp [hs]
  unfold ctxResolveW at ha ⊢
  cases b with
  | true =>
    simp only [if_true] at ha ⊢
    have := ha s.log (.read name) (List.prefix_refl _) (List.prefix_refl _)
    simp only [Event.read] at this
    rw [this s.groups]
  | false =>
    simp only [Bool.false_eq_true, if_false] at ha ⊢
    cases hs : scopeLookup s.scopes name with
    | some a => rfl
    | none =>
      rw [hs] at ha
      have := ha s.log (.resolve thing name) (List.prefix_refl _) (List.prefix_refl _)
      simp only at this ⊢
      rw [this]

theorem evalSymbol_sameW (thing : Value) (name : String) (rt : DataType) (b : Bool) :
    SameW W W2 dc (evalSymbolW W env thing name rt b) (evalSymbolW W2 env thing name rt b) := by
  unfold evalSymbolW
  refine SameW.bind (SameW.catch (ctxResolve_sameW ..) fun e => ?_) fun v => SameW.lift _
  cases isSymErr e <;> cases env.defaultValue <;> first | exact SameW.lift (.ok _) | exact SameW.lift (.error _)

theorem evalGetAttrW_eq (W : World) (env : Env) (o : Value) (name : String) :
    evalGetAttrW W env o name = (match resolveAttr env o name with
      | .ok v => Pure.pure (newValue env v)
      | .error e => if isAttrErr e then
          M.catchErr (ctxResolveW W o name false >>= fun v => Pure.pure (newValue env v)) fun e' =>
            if isSymErr e' then (match env.defaultValue with
              | some d => Pure.pure (newValue env d)
              | none => M.throw e) else M.throw e'
        else M.throw e) := by
  funext s
  unfold evalGetAttrW
  cases resolveAttr env o name with
  | ok v => rfl
  | error e =>
    simp only
    split
    · simp only [M.catchErr, M.bind_apply]
      rcases ctxResolveW W o name false s with ⟨_ | v, s'⟩
      · simp only
        split
        · cases env.defaultValue <;> rfl
        · rfl
      · rfl
    · rfl

theorem evalGetAttr_sameW (o : Value) (name : String) :
    SameW W W2 dc (evalGetAttrW W env o name) (evalGetAttrW W2 env o name) := by
  rw [evalGetAttrW_eq, evalGetAttrW_eq]
  split
  · exact SameW.lift (.ok _)
  · split
    · refine SameW.catch (SameW.bind (ctxResolve_sameW ..) fun v => SameW.lift (.ok _)) fun e' => ?_
      split
      · split
        · exact SameW.lift (.ok _)
        · exact SameW.lift (.error _)
      · exact SameW.lift (.error _)
    · exact SameW.lift (.error _)

theorem callLogged_sameW {f : Value} {args : List Value} (h : f.isCallable = true ∨ args ≠ []) :
    SameW W W2 dc (callLoggedW W dc f args) (callLoggedW W2 dc f args) := by
  refine ⟨fun s => List.prefix_append _ _, fun s ha => ?_⟩
  have := ha s.log (.call f args) (List.prefix_refl _) (List.prefix_refl _)
  unfold callLoggedW
  split at this
  · rename_i heq; cases heq
  · rename_i heq
    cases heq
    rcases h with h | h
    · simp [Value.isCallable] at h
    · exact (h rfl).elim
  · rename_i heq; cases heq; rw [this]
  · rename_i heq; cases heq

theorem mapCalls_sameW (f : Value) : ∀ xs, SameW W W2 dc (mapCallsW W dc f xs) (mapCallsW W2 dc f xs)
  | [] => SameW.lift (.ok _)
  | x :: xs => by
    unfold mapCallsW
    exact SameW.bind (callLogged_sameW (.inr (by simp))) fun y => SameW.bind (mapCalls_sameW f xs) fun ys => SameW.lift (.ok _)

theorem filterCalls_sameW (f : Value) : ∀ xs, SameW W W2 dc (filterCallsW W dc f xs) (filterCallsW W2 dc f xs)
  | [] => SameW.lift (.ok _)
  | x :: xs => by
    unfold filterCallsW
    exact SameW.bind (callLogged_sameW (.inr (by simp))) fun y => SameW.bind (filterCalls_sameW f xs) fun ys => SameW.lift (.ok _)

theorem evalCall_sameW (ft rt : DataType) (f : Value) (args : List Value) (hf : f.isCallable = true) :
    SameW W W2 dc (evalCallW W env dc ft rt f args) (evalCallW W2 env dc ft rt f args) := by
  have hl : ∀ (f : Value) (args : List Value), SameW W W2 dc (M.modify fun s => { s with log := s.log ++ [.call f args] })
      (M.modify fun s => { s with log := s.log ++ [.call f args] }) := fun f args =>
    SameW.modify fun s => List.prefix_append _ _
  have hc : SameW W W2 dc (callFnW W env dc f args) (callFnW W2 env dc f args) := by
    have hp := callLogged_sameW (W := W) (W2 := W2) (dc := dc) (args := args) (.inl hf)
    unfold callFnW
    split
    · exact SameW.bind (hl _ _) fun _ => SameW.bind (SameW.lift _) fun xs => SameW.bind (mapCalls_sameW _ xs) fun _ => SameW.lift (.ok _)
    · exact SameW.bind (hl _ _) fun _ => SameW.bind (SameW.lift _) fun xs => SameW.bind (filterCalls_sameW _ xs) fun _ => SameW.lift (.ok _)
    · exact hp
  have hfin : SameW W W2 dc (finishCallW W env dc rt f args) (finishCallW W2 env dc rt f args) := by
    unfold finishCallW
    refine SameW.bind (SameW.catch hc fun _ => SameW.lift (.error _)) fun r => SameW.bind (SameW.lift _) fun r =>
      SameW.bind (SameW.lift _) fun t => ?_
    split
    · exact SameW.lift (.ok _)
    · exact SameW.lift (.error _)
  unfold evalCallW
  split
  · exact hfin
  · exact SameW.bind (SameW.lift _) fun _ => hfin

theorem sameW_relWW : RelWW W W2 env dc (@SameW W W2 dc) where
  lift := SameW.lift
  bind := SameW.bind
  fuzzy s n a b := .refl (SimW.fuzzy (W := W) (env := env) (dc := dc) s n a b).grows
  scope := SameW.scope
  symbol := evalSymbol_sameW
  attr := evalGetAttr_sameW
  call := evalCall_sameW

end

/-! ### Whole rules -/

/-- **C76.** An evaluation knows its surroundings only from the answers it gets: if another world gives the same answers to the
questions of an evaluation, it is the same evaluation (the same value or exception, the same questions, the same state after it). -/
theorem same_answers (W W2 : World) (env : Env) (e : Expr) (thing : Value) (p : Proc)
    (h : W.Same W2 env.decCtx p.st.log (p.evaluateW W env e thing).2.st.log) :
    p.evaluateW W env e thing = p.evaluateW W2 env e thing := by
  have := (evalW_relWW (sameW_relWW (W := W) (W2 := W2) (env := env) (dc := env.decCtx)) thing e).run p.st.reset h
  simp only [Proc.evaluateW, ruleEvalW, this]

/-- **C76.** If the answers given during an evaluation are those of a context and runtime that do not change, the evaluation gives
what it gives there (to which all other properties apply). -/
theorem snapshot (W : World) (env : Env) (e : Expr) (thing : Value) (p : Proc)
    (h : W.Agrees env env.decCtx p.st.log (p.evaluateW W env e thing).2.st.log) :
    (p.evaluateW W env e thing).1 = (p.evaluate env e thing).1 :=
  ((evalW_relW (simW_relW (W := W) (env := env) (dc := env.decCtx)) thing e).run p.st.reset p.st.reset ⟨rfl, rfl, rfl⟩ h).1

/-- **C76.** In particular when nothing changes at all. -/
theorem still_world (env : Env) (e : Expr) (thing : Value) (p : Proc) :
    (p.evaluateW (.still env) env e thing).1 = (p.evaluate env e thing).1 :=
  snapshot _ env e thing p fun h q _ _ => by
    split
    · rfl
    · exact fun _ => rfl
    · rfl
    · trivial

/-- **C76.** The order of questions (C67) in a world that changes: names are asked for, builtin symbols read, functions called
and matches recorded in the order of the rule as written. -/
theorem steps_in_order_world (W : World) (codec : LitCodec) (env : Env) (dct : DecCtx) (text : String) (p p' : Proc) (e : Expr)
    (h : p.rule codec env dct text = (.ok e, p')) (raw : Raw) (c : Option String)
    (hp : (parseText codec p.line text).out = .ok (raw, c)) (thing : Value) (q : Proc) :
    ∃ evs path, (q.evaluateW W env e thing).2.st.log = q.st.log ++ evs ∧ path ∈ raw.order [] ∧
      List.SublistForall₂ (Event.Is thing) evs path := by
  simp only [Proc.rule, parseRule, hp] at h
  have hb := congrArg Prod.fst h
  have hs := congrArg (fun x => x.2.st) h
  simp only at hb hs
  have hbu := build_built raw (e := e) (s' := p'.st) (Prod.ext hb hs : construct env dct raw p.st = _)
  obtain ⟨x, g', sy', evs, path, h1, h2, h3⟩ :=
    (built_followsW (W := W) (dc := env.decCtx) (thing := thing) (S := []) raw hbu).run .none q.st.symbols q.st.log
  refine ⟨evs, path, ?_, h2, h3⟩
  simp only [Proc.evaluateW, ruleEvalW, St.reset]
  rw [h1]

/-- **C76.** The number of questions (C67) in a world that changes. -/
theorem lookups_at_most_written_world (W : World) (codec : LitCodec) (env : Env) (dct : DecCtx) (text : String) (p p' : Proc)
    (e : Expr) (h : p.rule codec env dct text = (.ok e, p')) (raw : Raw) (c : Option String)
    (hp : (parseText codec p.line text).out = .ok (raw, c)) (hl : raw.loopFree = true) (thing : Value) (q : Proc)
    (n : String) : ∃ evs, (q.evaluateW W env e thing).2.st.log = q.st.log ++ evs ∧
      evs.countP (Event.asks n) ≤ (raw.uses []).count ⟨n, false, false⟩ + raw.attrNames.count n := by
  obtain ⟨evs, path, h1, h2, h3⟩ := steps_in_order_world W codec env dct text p p' e h raw c hp thing q
  exact ⟨evs, h1, (sub_count h3).trans (order_atMost n raw hl path h2)⟩

section
variable (W : World) (env : Env) (r : Value → String → Except Err Value) (dc : DecCtx) (thing : Value)

mutual
/-- in a world the resolver of the environment is not asked -/
theorem evalW_resolver : ∀ e : Expr, evalW W { env with resolver := r } dc thing e = evalW W env dc thing e
  | .lit v _ => by simp only [evalW]
  | .array xs => by simp only [evalW, evalsW_resolver xs]
  | .set xs => by simp only [evalW, evalsW_resolver xs]
  | .mapping kvs => by simp only [evalW, evalPairsW_resolver kvs]
  | .bin op a b => by simp only [evalW, evalW_resolver a, evalW_resolver b]; rfl
  | .comp result var iterable cond => by
    simp only [evalW, evalW_resolver result, evalW_resolver iterable, evalW_resolver cond]
  | .contains a b => by simp only [evalW, evalW_resolver a, evalW_resolver b]
  | .getAttr a name safe => by simp only [evalW, evalW_resolver a]; rfl
  | .getItem a b safe => by simp only [evalW, evalW_resolver a, evalW_resolver b]; rfl
  | .getSlice a b c safe => by simp only [evalW, evalW_resolver a, evalW_resolver b, evalW_resolver c]; rfl
  | .sym name rt b => by simp only [evalW]; rfl
  | .call f args => by simp only [evalW, evalW_resolver f, evalsW_resolver args]; rfl
  | .tern a b c => by simp only [evalW, evalW_resolver a, evalW_resolver b, evalW_resolver c]
  | .not a => by simp only [evalW, evalW_resolver a]
  | .neg a => by simp only [evalW, evalW_resolver a]
theorem evalsW_resolver : ∀ es : List Expr, evalsW W { env with resolver := r } dc thing es = evalsW W env dc thing es
  | [] => rfl
  | e :: es => by simp only [evalsW, evalW_resolver e, evalsW_resolver es]
theorem evalPairsW_resolver : ∀ es : List (Expr × Expr),
    evalPairsW W { env with resolver := r } dc thing es = evalPairsW W env dc thing es
  | [] => rfl
  | (k, v) :: es => by simp only [evalPairsW, evalW_resolver k, evalW_resolver v, evalPairsW_resolver es]
end
end

/-- The world of a context whose resolver depends on the history; the rest does not change. -/
def World.asking (env : Env) (R : List Event → Value → String → Except Err Value) : World := { World.still env with resolve := R }

/-- in a history that does not ask twice for a name, the moment of a question is determined by the question -/
theorem question_once {l evs h h' : List Event} {o : Value} {n : String} (hc : evs.countP (Event.asks n) ≤ 1) (h1 : l <+: h)
    (h2 : h ++ [.resolve o n] <+: l ++ evs) (h1' : l <+: h') (h2' : h' ++ [.resolve o n] <+: l ++ evs) : h = h' := by
  have key : ∀ {h h' : List Event}, l <+: h → h ++ [.resolve o n] <+: l ++ evs → h' ++ [.resolve o n] <+: l ++ evs →
      h.length < h'.length → False := by
    intro h h' h1 h2 h2' hlt
    have hp : h ++ [.resolve o n] <+: h' := List.prefix_of_prefix_length_le h2 ((List.prefix_append _ _).trans h2') (by simp; omega)
    obtain ⟨a, rfl⟩ := h1
    obtain ⟨b, rfl⟩ := hp
    obtain ⟨c, hc'⟩ := h2'
    have : evs = a ++ [.resolve o n] ++ b ++ [.resolve o n] ++ c := by
      have h3 : l ++ (a ++ [.resolve o n] ++ b ++ [.resolve o n] ++ c) = l ++ evs := by simpa using hc'
      exact (List.append_cancel_left h3).symm
    rw [this] at hc
    simp [List.countP_append, Event.asks] at hc
    omega
  rcases Nat.lt_trichotomy h.length h'.length with hlt | heq | hgt
  · exact (key h1 h2 h2' hlt).elim
  · have := List.prefix_of_prefix_length_le h2 h2' (by simp [heq])
    have := this.eq_of_length (by simp [heq])
    exact (List.append_inj this heq).1
  · exact (key h1' h2' h2 hgt).elim

open Classical in
/-- **C76.** A rule without comprehensions, in which no name is written twice, gives with any resolver, however its answers change
while the rule is evaluated, what it gives with a resolver that always gives one of those answers. -/
theorem asked_once (R : List Event → Value → String → Except Err Value) (codec : LitCodec) (env : Env) (dct : DecCtx)
    (text : String) (p p' : Proc) (e : Expr) (h : p.rule codec env dct text = (.ok e, p')) (raw : Raw) (c : Option String)
    (hp : (parseText codec p.line text).out = .ok (raw, c)) (hl : raw.loopFree = true)
    (h1 : ∀ n, (raw.uses []).count ⟨n, false, false⟩ + raw.attrNames.count n ≤ 1) (thing : Value) (q : Proc) :
    ∃ r : Value → String → Except Err Value, (∀ o n, ∃ h, r o n = R h o n) ∧
      (q.evaluateW (.asking env R) env e thing).1 = (q.evaluate { env with resolver := r } e thing).1 := by
  obtain ⟨evs, he⟩ : ∃ evs, (q.evaluateW (.asking env R) env e thing).2.st.log = q.st.log ++ evs := by
    obtain ⟨evs, _, h', -⟩ := steps_in_order_world (.asking env R) codec env dct text p p' e h raw c hp thing q
    exact ⟨evs, h'⟩
  have hc : ∀ n, evs.countP (Event.asks n) ≤ 1 := by
    intro n
    obtain ⟨evs', h2, h3⟩ := lookups_at_most_written_world (.asking env R) codec env dct text p p' e h raw c hp hl thing q n
    have : evs' = evs := List.append_cancel_left (h2.symm.trans he)
    rw [← this]
    exact h3.trans (h1 n)
  let moment : Value → String → List Event := fun o n =>
    if hx : ∃ h, q.st.log <+: h ∧ h ++ [.resolve o n] <+: q.st.log ++ evs then hx.choose else []
  refine ⟨fun o n => R (moment o n) o n, fun o n => ⟨_, rfl⟩, ?_⟩
  have e1 : q.evaluateW (.asking env R) { env with resolver := fun o n => R (moment o n) o n } e thing =
      q.evaluateW (.asking env R) env e thing := by
    simp only [Proc.evaluateW, ruleEvalW, evalW_resolver]
  rw [← e1]
  refine snapshot (.asking env R) { env with resolver := fun o n => R (moment o n) o n } e thing q ?_
  rw [e1, he]
  intro h q' h2 h3
  split
  · rename_i o n
    have hx : ∃ h, q.st.log <+: h ∧ h ++ [.resolve o n] <+: q.st.log ++ evs := ⟨h, h2, h3⟩
    have : moment o n = h := by
      simp only [moment, dif_pos hx]
      exact question_once (hc n) hx.choose_spec.1 hx.choose_spec.2 h2 h3
    simp only [World.asking, this]
  · exact fun _ => rfl
  · rfl
  · trivial

/-! ### Witnesses -/

/-- The sample context in a world where the clock goes on with everything that happens and a name is "old" the first time and
"new" ever after. -/
def sampleWorld : World :=
  { World.moving (fun h => { sampleEnv with now := fun _ => 63713433600000000 + h.length }) with
    resolve := fun h _ n => if h.any (Event.asks n) then .ok (.str "new") else .ok (.str "old") }

/-- a rule evaluated in a world -/
def sampleRunW (W : World) (text : String) : Option (Except Err Value) :=
  match Proc.new.rule plainCodec sampleEnv .default text with
  | (.ok e, p) => some (p.evaluateW W sampleEnv e .none).1
  | _ => none

/-- When answers change during an evaluation, what is written twice need not have one value: a comparison of a name, or of the
clock, with itself is false, and a condition can have held of a value that the result no longer has. -/
theorem changing_witness :
    sampleRunW sampleWorld "a == a" = some (.ok (.bool false)) ∧
    sampleRunW sampleWorld "$now == $now" = some (.ok (.bool false)) ∧
    sampleRunW sampleWorld "a == 'old' ? a : 'other'" = some (.ok (.str "new")) ∧
    sampleRunW sampleWorld "a + b" = some (.ok (.str "oldold")) ∧
    sampleRunW (.still sampleEnv) "$now == $now" = some (.ok (.bool true)) := by
  refine ⟨?_, ?_, ?_, ?_, ?_⟩ <;> decide +kernel

/-- The hypotheses of `asked_once` are met by the rule `(x) + (y)`: the resolver of `sampleWorld` is as good as one that always
answers "old". -/
example (codec : LitCodec) : ∃ e p' raw c, Proc.new.rule codec sampleEnv .default (String.ofList (binText ['x'] .ADD ['y'])) = (.ok e, p') ∧
    (parseText codec Proc.new.line (String.ofList (binText ['x'] .ADD ['y']))).out = .ok (raw, c) ∧ raw.loopFree = true ∧
    (∀ n, (raw.uses []).count ⟨n, false, false⟩ + raw.attrNames.count n ≤ 1) ∧
    (Proc.new.evaluateW sampleWorld sampleEnv e .none).1 = .ok (.str "oldold") := by
  have hx : Means codec ['x'] (.sym "x" false) := means_sym x_word
  have hy : Means codec ['y'] (.sym "y" false) := means_sym ⟨by decide, by decide⟩
  have h := means_bin hx hy .ADD (by decide)
  refine ⟨_, _, _, _, Prod.ext ((rule_of_means h).trans rfl) rfl, h 1, rfl, ?_, by decide +kernel⟩
  intro n
  simp only [Raw.uses, Raw.attrNames, List.count_nil, List.nil_append, List.append_nil, List.count_append, List.count_cons]
  by_cases h1 : n = "x"
  · subst h1; decide
  · by_cases h2 : n = "y"
    · subst h2; decide
    · simp [Ne.symm h1, Ne.symm h2]

/-- The hypotheses of `snapshot` (and of `same_answers`) are met by the rule `x` in `sampleWorld`: it asks once, and the answer
is that of a resolver that always answers "old". -/
example : sampleWorld.Agrees { sampleEnv with resolver := fun _ _ => .ok (.str "old") } .default []
      (Proc.new.evaluateW sampleWorld sampleEnv (.sym "x" .undefined false) .none).2.st.log ∧
    sampleWorld.Same (.still { sampleEnv with resolver := fun _ _ => .ok (.str "old") }) .default []
      (Proc.new.evaluateW sampleWorld sampleEnv (.sym "x" .undefined false) .none).2.st.log := by
  have hl : (Proc.new.evaluateW sampleWorld sampleEnv (.sym "x" .undefined false) .none).2.st.log = [.resolve .none "x"] := rfl
  rw [hl]
  constructor <;> intro h q _ hq <;> rcases h with _ | ⟨a, h⟩ <;>
    simp [List.cons_prefix_cons, List.prefix_nil] at hq
  · subst hq; rfl
  · subst hq; rfl

end RE
