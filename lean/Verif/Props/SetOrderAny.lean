import Verif.Props.SetOrderRule
import Verif.Model.Orders

/-!
# Sets have no order: sets listed in any order during an evaluation (C85)
-/

set_option linter.unusedSimpArgs false
set_option linter.unusedVariables false
set_option linter.unusedSectionVars false

namespace RE

/-! ### The relation is an equivalence -/

mutual
theorem Shuffled.symm : ∀ {a b : Value}, Shuffled a b → Shuffled b a
  | _, _, .same v h => .same v h
  | _, _, .seq k h => .seq k h.symm
  | _, _, .set h => .set h.symm
  | _, _, .map k h => .map k h.symm
theorem ShuffledAll.symm : ∀ {a b : List Value}, ShuffledAll a b → ShuffledAll b a
  | _, _, .nil => .nil
  | _, _, .cons h hs => .cons h.symm hs.symm
theorem ShuffledItems.symm : ∀ {a b : List (Value × Value)}, ShuffledItems a b → ShuffledItems b a
  | _, _, .nil => .nil
  | _, _, .cons k h hs => .cons k h.symm hs.symm
end

mutual
theorem Shuffled.trans : ∀ {a b c : Value}, Shuffled a b → Shuffled b c → Shuffled a c
  | _, _, _, .same v h, h' => h'
  | _, _, _, .seq k h, .seq _ h' => .seq k (h.trans h')
  | _, _, _, .set h, .set h' => .set (List.Perm.trans h h')
  | _, _, _, .map k h, .map _ h' => .map k (h.trans h')
  | _, _, _, .seq k h, .same _ h' => .seq k h
  | _, _, _, .set h, .same _ h' => .set h
  | _, _, _, .map k h, .same _ h' => .map k h
theorem ShuffledAll.trans : ∀ {a b c : List Value}, ShuffledAll a b → ShuffledAll b c → ShuffledAll a c
  | _, _, _, .nil, .nil => .nil
  | _, _, _, .cons h hs, .cons h' hs' => .cons (h.trans h') (hs.trans hs')
theorem ShuffledItems.trans : ∀ {a b c : List (Value × Value)}, ShuffledItems a b → ShuffledItems b c → ShuffledItems a c
  | _, _, _, .nil, .nil => .nil
  | _, _, _, .cons k h hs, .cons _ h' hs' => .cons k (h.trans h') (hs.trans hs')
end

/-- the function changes nothing but the order in which the members of sets come -/
structure Reorders (off : TzDb) (order : St → Value → Value) : Prop where
  shuffled : ∀ s v, Shuffled v (order s v)
  wf : ∀ s v, v.WF off → (order s v).WF off

theorem relist_keeps {off : TzDb} {order : St → Value → Value} (h : Reorders off order) {v : Value} (hv : v.WF off) :
    Keeps.Val off (relist order v) :=
  ⟨fun s hs => ⟨fun w hw => (by cases hw; exact h.wf s v hv), hs⟩⟩

theorem relist_tandem {off : TzDb} {order order' : St → Value → Value} (h : Reorders off order) (h' : Reorders off order')
    {v w : Value} (hv : Agrees off v w) : Tandem.Val off (relist order v) (relist order' w) :=
  ⟨fun s s' hs => ⟨.ok ⟨((h.shuffled s v).symm.trans hv.shuffled).trans (h'.shuffled s' w), h.wf s v hv.left,
    h'.wf s' w hv.right⟩, hs⟩⟩

section
variable {env : Env} {thing : Value} (hd : env.DataOk) (ht : thing.WF env.utcoffset) {order : St → Value → Value}
  (hr : Reorders env.utcoffset order)
include hd ht hr

mutual
theorem evalAny_keeps {dc : DecCtx} : ∀ e : Expr, e.FlatLits →
    Keeps.Val env.utcoffset (evalAnyOrder env dc order thing e)
  | .lit v t, h => relist_keeps hr (flat_wf h)
  | .array xs, h => (seqM_keeps (evalsAny_keeps xs h)).bind fun vs hvs => relist_keeps hr (tuple_wf hvs)
  | .set xs, h => (setM_keeps (acc := []) (by simp [Value.WF, Value.AllWF]) (evalsAny_keeps xs h)).bind fun vs hvs =>
      relist_keeps hr hvs
  | .mapping kvs, h => (mapping_keeps (evalPairsAny_keeps kvs h)).bind fun v hv => relist_keeps hr hv
  | .bin op l r, h => (evalBin_keeps (evalAny_keeps l h.1) (evalAny_keeps r h.2)).bind fun v hv => relist_keeps hr hv
  | .comp r var it c, h => by
      simp only [evalAnyOrder]
      refine (evalAny_keeps it h.2.1).bind fun v hv => Keeps.skip.bind fun t _ => Keeps.ite ?_ Keeps.throw
      refine Keeps.bind (P := fun xs => ∀ x ∈ xs, x.WF env.utcoffset) (.lift fun xs hx => members_wf hv hx) fun xs hx => ?_
      exact (compM_keeps (evalAny_keeps c h.2.2) (evalAny_keeps r h.1) xs hx).bind fun vs hvs => relist_keeps hr (tuple_wf hvs)
  | .contains c m, h => (evalAny_keeps c h.1).bind fun _ _ => Keeps.skip.bind fun _ _ => (evalAny_keeps m h.2).bind fun _ _ =>
      Keeps.skip.bind fun _ _ => relist_keeps hr (flat_wf rfl)
  | .getAttr o name safe, h => by
      simp only [evalAnyOrder]
      exact (evalAny_keeps o h).bind fun v hv => Keeps.ite (relist_keeps hr (flat_wf rfl))
        ((evalGetAttr_keeps hd hv name).bind fun v hv => relist_keeps hr hv)
  | .getItem c i safe, h => by
      simp only [evalAnyOrder]
      refine (evalAny_keeps c h.1).bind fun v hv => Keeps.ite (Keeps.ite (relist_keeps hr (flat_wf rfl)) Keeps.throw) ?_
      refine (evalAny_keeps i h.2).bind fun _ _ => Keeps.bind (P := fun o => ∀ w, o = some w → w.WF env.utcoffset)
        (.lift fun o ho w hw => item_wf hv (opGetItem_itemOf (by rw [ho, hw]))) fun o ho => ?_
      cases o with
      | some w => exact relist_keeps hr (newValue_wf (ho w rfl))
      | none => exact Keeps.ite (relist_keeps hr (flat_wf rfl)) Keeps.throw
  | .getSlice c a b safe, h => by
      simp only [evalAnyOrder]
      refine (evalAny_keeps c h.1).bind fun v hv => Keeps.ite (Keeps.ite (relist_keeps hr (flat_wf rfl)) Keeps.throw) ?_
      refine Keeps.bind (P := Value.WF env.utcoffset) ?_ fun v hv => relist_keeps hr hv
      unfold evalSlice
      exact (evalAny_keeps a h.2.1).bind fun _ _ => Keeps.skip.bind fun _ _ => (evalAny_keeps b h.2.2).bind fun _ _ =>
        Keeps.skip.bind fun _ _ => Keeps.bind (P := Value.WF env.utcoffset) (.lift fun w hw => slice_wf hv hw) fun w hw =>
          Keeps.pure (coerce_wf w hw)
  | .sym name rt b, h => by
      simp only [evalAnyOrder]; exact (evalSymbol_keeps hd ht ..).bind fun v hv => relist_keeps hr hv
  | .call f args, h => by
      simp only [evalAnyOrder]
      exact (evalAny_keeps f h.1).bind fun fv _ => Keeps.ite ((seqM_keeps (evalsAny_keeps args h.2)).bind fun vs hvs =>
        (evalCall_keeps hd hvs).bind fun v hv => relist_keeps hr hv) Keeps.throw
  | .tern c t f, h => (evalAny_keeps c h.1).bind fun v _ => Keeps.ite (evalAny_keeps t h.2.1) (evalAny_keeps f h.2.2)
  | .not e, h => (evalAny_keeps e h).bind fun v _ => relist_keeps hr (flat_wf rfl)
  | .neg e, h => (evalAny_keeps e h).bind fun v hv =>
      (Keeps.bind (P := Value.WF env.utcoffset) (keeps_flat fun w hw => opNeg_flat hw) fun w hw => relist_keeps hr hw)
theorem evalsAny_keeps {dc : DecCtx} : ∀ es : List Expr, Expr.FlatList es →
    ∀ m ∈ evalsAnyOrder env dc order thing es, Keeps.Val env.utcoffset m
  | [], _ => by simp [evalsAnyOrder]
  | e :: es, h => by
    intro m hm
    rcases List.mem_cons.1 hm with rfl | hm
    · exact evalAny_keeps e h.1
    · exact evalsAny_keeps es h.2 m hm
theorem evalPairsAny_keeps {dc : DecCtx} : ∀ es : List (Expr × Expr), Expr.FlatPairs es →
    ∀ p ∈ evalPairsAnyOrder env dc order thing es, Keeps.Val env.utcoffset p.1 ∧ Keeps.Val env.utcoffset p.2
  | [], _ => by simp [evalPairsAnyOrder]
  | (k, v) :: es, h => by
    intro m hm
    rcases List.mem_cons.1 hm with rfl | hm
    · exact ⟨evalAny_keeps k h.1, evalAny_keeps v h.2.1⟩
    · exact evalPairsAny_keeps es h.2.2 m hm
end
end

/-! ### Iterables of comprehensions -/

/-- what a computation gives is no set -/
def NoSets (m : M Value) : Prop := ∀ s s' v, m s = (.ok v, s') → ∀ xs, v ≠ .set xs

theorem relist_notSet {off : TzDb} {order : St → Value → Value} (hk : Reorders off order) {v : Value} (h : ∀ xs, v ≠ .set xs) :
    NoSets (relist order v) := by
  intro s s' w hw xs he
  cases hw
  have := hk.shuffled s v
  rw [he] at this
  cases this with
  | set => exact h _ rfl
  | same _ hv => simp [Value.isFlat] at hv

theorem NoSets.bind {α : Type} {m : M α} {f : α → M Value} (h : ∀ a, NoSets (f a)) : NoSets (m >>= f) := by
  intro s s' v hv
  rw [M.bind_eq_ok] at hv
  obtain ⟨a, s1, -, h2⟩ := hv
  exact h a s1 s' v h2
theorem NoSets.throw {e : Err} : NoSets (M.throw e) := fun s s' v hv => by cases hv
theorem NoSets.ite {c : Prop} [Decidable c] {x y : M Value} (hx : NoSets x) (hy : NoSets y) : NoSets (if c then x else y) := by
  split <;> assumption
theorem NoSets.relist {off : TzDb} {order : St → Value → Value} (hk : Reorders off order) {m : M Value} (h : NoSets m) :
    NoSets (do let v ← m; relist order v) := by
  intro s s' v hv
  rw [M.bind_eq_ok] at hv
  obtain ⟨a, s1, h1, h2⟩ := hv
  exact relist_notSet hk (h s s1 a h1) s1 s' v h2

section
variable {env : Env} {thing : Value} {dc : DecCtx} {off : TzDb} {order : St → Value → Value} (hk : Reorders off order)
include hk

theorem ordered_noSets : ∀ {e : Expr}, e.ordered = true → e.FlatLits → NoSets (evalAnyOrder env dc order thing e)
  | .lit v t, _, hf => relist_notSet hk (by rintro xs rfl; simp [Expr.FlatLits, Value.isFlat] at hf)
  | .array xs, _, _ => .bind fun _ => relist_notSet hk (by simp)
  | .mapping xs, _, _ => .relist hk (.bind fun _ => .bind fun _ => fun s s' v hv => by cases hv; simp)
  | .comp r x it c, _, _ => .bind fun _ => .bind fun _ => .ite (.bind fun _ => .bind fun _ => relist_notSet hk (by simp)) .throw
  | .getSlice c a b safe, _, _ => .bind fun v => .ite (.ite (relist_notSet hk (by simp)) .throw) (.relist hk (by
      intro s s' v h
      simp only [evalSlice, M.bind_eq_ok, M.pure_eq_ok, M.lift_eq_ok] at h
      obtain ⟨_, _, _, _, _, _, _, _, _, _, _, _, u, _, ⟨hu, _⟩, rfl, _⟩ := h
      unfold pyGetSlice at hu
      split at hu <;> cases hu <;> simp [coerce]))
  | .sym name rt b, ho, _ => .relist hk (by
      intro s s' v h
      simp only [evalSymbol, M.bind_eq_ok, M.lift_eq_ok] at h
      obtain ⟨_, _, _, h, _⟩ := h
      exact checkSymbol_notSet ho h)
  | .tern c t f, ho, hf => by
    simp only [Expr.ordered, Bool.and_eq_true] at ho
    exact .bind fun _ => .ite (ordered_noSets ho.1 hf.2.1) (ordered_noSets ho.2 hf.2.2)
  | .set _, ho, _ | .bin .., ho, _ | .contains .., ho, _ | .getAttr .., ho, _ | .getItem .., ho, _ | .call .., ho, _
  | .not _, ho, _ | .neg _, ho, _ => by simp [Expr.ordered] at ho
end

/-! ### Nodes -/

theorem Tandem.noSet {off : TzDb} {m m' : M Value} (h : Tandem.Val off m m') (hn : NoSets m) :
    Tandem off (fun a b => Agrees off a b ∧ ∀ xs, a ≠ .set xs) m m' := h.left hn

section
variable {env : Env} (hd : env.DataOk) (ho : Orderly env) {thing thing' : Value} (ht : Agrees env.utcoffset thing thing')
  {order order' : St → Value → Value} (hr : Reorders env.utcoffset order) (hr' : Reorders env.utcoffset order')
include hd ho ht hr hr'

mutual
theorem evalAny_tandem {dc : DecCtx} : ∀ e : Expr, e.FlatLits → e.Orderless →
    Tandem.Val env.utcoffset (evalAnyOrder env dc order thing e) (evalAnyOrder env dc order' thing' e)
  | .lit v t, hf, h => relist_tandem hr hr' (.refl (flat_wf hf))
  | .array xs, hf, h =>
    ((seqM_tandem (evalsAny_tandem xs hf h)).both (seqM_keeps (evalsAny_keeps hd ht.left hr xs hf))
      (seqM_keeps (evalsAny_keeps hd ht.right hr' xs hf))).bind fun _ _ hv =>
        relist_tandem hr hr' ⟨.seq .tuple hv.1, tuple_wf hv.2.1, tuple_wf hv.2.2⟩
  | .set xs, hf, h =>
    ((setM_tandem [] (evalsAny_tandem xs hf h)).both
      (setM_keeps (acc := []) (by simp [Value.WF, Value.AllWF]) (evalsAny_keeps hd ht.left hr xs hf))
      (setM_keeps (acc := []) (by simp [Value.WF, Value.AllWF]) (evalsAny_keeps hd ht.right hr' xs hf))).bind fun _ _ hv => by
        obtain ⟨rfl, h1, h2⟩ := hv
        exact relist_tandem hr hr' ⟨.refl _, h1, h2⟩
  | .mapping xs, hf, h =>
    ((Tandem.bind (mapKeysM_tandem (acc := []) .nil (evalPairsAny_tandem xs hf h)) fun ks ks' hk =>
        (mapValsM_tandem hk).bind fun vs vs' hvs => .pure (Q := Shuffled) (.map .ordered hvs)).wf
      (mapping_keeps (evalPairsAny_keeps hd ht.left hr xs hf)) (mapping_keeps (evalPairsAny_keeps hd ht.right hr' xs hf))).bind
        fun _ _ hv => relist_tandem hr hr' hv
  | .bin op l r, hf, h =>
    ((evalBin_tandem (evalAny_tandem l hf.1 h.1) (evalAny_tandem r hf.2 h.2)).wf
      (evalBin_keeps (evalAny_keeps hd ht.left hr l hf.1) (evalAny_keeps hd ht.left hr r hf.2))
      (evalBin_keeps (evalAny_keeps hd ht.right hr' l hf.1) (evalAny_keeps hd ht.right hr' r hf.2))).bind
        fun _ _ hv => relist_tandem hr hr' hv
  | .comp r x it c, hf, h => by
    simp only [evalAnyOrder]
    refine ((evalAny_tandem it hf.2.1 h.2.1).noSet (ordered_noSets hr h.2.2.2 hf.2.1)).bind fun v v' hv =>
      (Tandem.same (shuffled_fromValue hv.1.shuffled hv.1.left)).bind fun t _ ht' => ?_
    subst ht'
    refine .ite ?_ .throw
    refine ((Tandem.lift (shuffled_members hv.1.shuffled hv.2)).both (P := fun xs => ∀ x ∈ xs, x.WF env.utcoffset)
      (P' := fun xs => ∀ x ∈ xs, x.WF env.utcoffset) (.lift fun xs hx => members_wf hv.1.left hx)
      (.lift fun xs hx => members_wf hv.1.right hx)).bind fun xs ys hxy => ?_
    exact ((compM_tandem (evalAny_tandem c hf.2.2 h.2.2.1) (evalAny_tandem r hf.1 h.1) hxy.1 hxy.2.1 hxy.2.2).both
      (compM_keeps (evalAny_keeps hd ht.left hr c hf.2.2) (evalAny_keeps hd ht.left hr r hf.1) xs hxy.2.1)
      (compM_keeps (evalAny_keeps hd ht.right hr' c hf.2.2) (evalAny_keeps hd ht.right hr' r hf.1) ys hxy.2.2)).bind
        fun _ _ hv => relist_tandem hr hr' ⟨.seq .tuple hv.1, tuple_wf hv.2.1, tuple_wf hv.2.2⟩
  | .contains c m, hf, h => by
    refine (evalAny_tandem c hf.1 h.1).bind fun v v' hv => (Tandem.same (shuffled_fromValue hv.shuffled hv.left)).bind fun t _ ht' => ?_
    subst ht'
    refine (evalAny_tandem m hf.2 h.2).bind fun w w' hw =>
      (Tandem.same (shuffled_opContains hw.shuffled hw.left hv.shuffled)).bind fun b _ hb => ?_
    subst hb
    exact relist_tandem hr hr' (.refl (flat_wf rfl))
  | .getAttr o name safe, hf, h => by
    simp only [evalAnyOrder]
    refine (evalAny_tandem o hf h.1).bind fun v v' hv => ?_
    exact .test (by rw [shuffled_none hv.shuffled]) (relist_tandem hr hr' (.refl (flat_wf rfl)))
      ((evalGetAttr_tandem hd ho hv h.2).bind fun _ _ hv => relist_tandem hr hr' hv)
  | .getItem c i safe, hf, h => by
    simp only [evalAnyOrder]
    refine (evalAny_tandem c hf.1 h.1).bind fun v v' hv => ?_
    refine .test (shuffled_none hv.shuffled) (.ite (relist_tandem hr hr' (.refl (flat_wf rfl))) .throw) ?_
    refine (evalAny_tandem i hf.2 h.2).bind fun w w' hw => ((Tandem.lift (shuffled_opGetItem hv hw)).both
      (P := fun o => ∀ w, o = some w → w.WF env.utcoffset) (P' := fun o => ∀ w, o = some w → w.WF env.utcoffset)
      (.lift fun o ho w hw => item_wf hv.left (opGetItem_itemOf (by rw [ho, hw])))
      (.lift fun o ho w hw => item_wf hv.right (opGetItem_itemOf (by rw [ho, hw])))).bind fun o o' hoo => ?_
    rcases hoo with ⟨⟨rfl, rfl⟩ | ⟨a, b, rfl, rfl, hab⟩, h1, h2⟩
    · exact .ite (relist_tandem hr hr' (.refl (flat_wf rfl))) .throw
    · exact relist_tandem hr hr' (newValue_agrees ⟨hab, h1 _ rfl, h2 _ rfl⟩)
  | .getSlice c a b safe, hf, h => by
    simp only [evalAnyOrder]
    refine (evalAny_tandem c hf.1 h.1).bind fun v v' hv => ?_
    refine .test (shuffled_none hv.shuffled) (.ite (relist_tandem hr hr' (.refl (flat_wf rfl))) .throw) ?_
    refine Tandem.bind (Q := Agrees env.utcoffset) ?_ fun _ _ hv => relist_tandem hr hr' hv
    unfold evalSlice
    refine (evalAny_tandem a hf.2.1 h.2.1).bind fun x x' hx => (Tandem.same (shuffled_sliceArg hx.shuffled)).bind fun i _ hi => ?_
    subst hi
    refine (evalAny_tandem b hf.2.2 h.2.2).bind fun y y' hy => (Tandem.same (shuffled_sliceArg hy.shuffled)).bind fun j _ hj => ?_
    subst hj
    exact ((Tandem.lift (shuffled_getSlice hv.shuffled)).both (P := Value.WF env.utcoffset) (P' := Value.WF env.utcoffset)
      (.lift fun w hw => slice_wf hv.left hw) (.lift fun w hw => slice_wf hv.right hw)).bind fun w w' hw =>
        .pure ⟨coerce_shuffled hw.1, coerce_wf w hw.2.1, coerce_wf w' hw.2.2⟩
  | .sym name rt b, hf, h => by
    simp only [evalAnyOrder]; exact (evalSymbol_tandem hd ho ht ..).bind fun _ _ hv => relist_tandem hr hr' hv
  | .call f args, hf, h => by
    obtain ⟨⟨name, hn, rfl⟩, hargs⟩ := h
    simp only [evalAnyOrder]
    have hcallee : Tandem env.utcoffset (fun a b => Agrees env.utcoffset a b ∧ PlainFn a)
        (do let v ← evalSymbol env thing name (builtinType name) true; relist order v : M Value)
        (do let v ← evalSymbol env thing' name (builtinType name) true; relist order' v) := by
      refine ((evalSymbol_tandem hd ho ht name (builtinType name) true).left fun s s' v hv => builtin_callee hn hv).bind
        fun v v' hv => (relist_tandem hr hr' hv.1).left fun s s' w hw => ?_
      obtain ⟨-, b, h1, h2, rfl⟩ := hv
      cases hw
      exact ⟨b, h1, h2, (hr.shuffled s _).sides rfl⟩
    refine hcallee.bind fun fv fv' hfv => ?_
    obtain ⟨hfv, b, h1, h2, rfl⟩ := hfv
    obtain rfl := hfv.shuffled.sides rfl
    refine .ite ?_ .throw
    refine ((seqM_tandem (evalsAny_tandem args hf.2 hargs)).both (seqM_keeps (evalsAny_keeps hd ht.left hr args hf.2))
      (seqM_keeps (evalsAny_keeps hd ht.right hr' args hf.2))).bind fun vs ws hvs => ?_
    exact (evalCall_tandem hd hn ⟨b, h1, h2, rfl⟩ hvs.1 hvs.2.1 hvs.2.2).bind fun _ _ hv => relist_tandem hr hr' hv
  | .tern c t f, hf, h => by
    simp only [evalAnyOrder]
    refine (evalAny_tandem c hf.1 h.1).bind fun v v' hv => ?_
    rw [shuffled_truthy hv.shuffled]
    exact .ite (evalAny_tandem t hf.2.1 h.2.1) (evalAny_tandem f hf.2.2 h.2.2)
  | .not e, hf, h => by
    simp only [evalAnyOrder]
    refine (evalAny_tandem e hf h).bind fun v v' hv => ?_
    rw [shuffled_truthy hv.shuffled]
    exact relist_tandem hr hr' (.refl (flat_wf rfl))
  | .neg e, hf, h => by
    simp only [evalAnyOrder]
    refine (evalAny_tandem e hf h).bind fun v v' hv => ?_
    refine (Tandem.both (Q := fun a b => b = a) (P := Value.WF env.utcoffset) (P' := fun _ => True)
      (Tandem.same (shuffled_opNeg hv.shuffled)) (keeps_flat fun w hw => opNeg_flat hw) Keeps.skip).bind fun w w' hw => ?_
    obtain ⟨rfl, h1, -⟩ := hw
    exact relist_tandem hr hr' (.refl h1)
theorem evalsAny_tandem {dc : DecCtx} : ∀ es : List Expr, Expr.FlatList es → Expr.OrderlessList es →
    List.Forall₂ (Tandem.Val env.utcoffset) (evalsAnyOrder env dc order thing es) (evalsAnyOrder env dc order' thing' es)
  | [], _, _ => .nil
  | e :: es, hf, h => .cons (evalAny_tandem e hf.1 h.1) (evalsAny_tandem es hf.2 h.2)
theorem evalPairsAny_tandem {dc : DecCtx} : ∀ es : List (Expr × Expr), Expr.FlatPairs es → Expr.OrderlessPairs es →
    List.Forall₂ (fun p q : M Value × M Value => Tandem.Val env.utcoffset p.1 q.1 ∧ Tandem.Val env.utcoffset p.2 q.2)
      (evalPairsAnyOrder env dc order thing es) (evalPairsAnyOrder env dc order' thing' es)
  | [], _, _ => .nil
  | (k, v) :: es, hf, h => .cons ⟨evalAny_tandem k hf.1 h.1, evalAny_tandem v hf.2.1 h.2.1⟩ (evalPairsAny_tandem es hf.2.2 h.2.2)
end
end

/-! ### The order of insertion is one of the orders -/

theorem relist_id (v : Value) : relist (fun _ v => v) v = Pure.pure v := rfl

theorem bind_relist_id (m : M Value) : (do let v ← m; relist (fun _ v => v) v) = m := by
  funext s
  rw [M.bind_apply]
  rcases h : m s with ⟨e | v, s'⟩ <;> rfl

theorem bind_pure_self (m : M Value) : Bind.bind m (fun v => Pure.pure v) = m := bind_relist_id m

section
variable {env : Env} {dc : DecCtx} {thing : Value}

mutual
/-- listing sets as they are made is evaluation as in `Model/Eval` -/
theorem evalAny_id : ∀ e : Expr, evalAnyOrder env dc (fun _ v => v) thing e = eval env dc thing e
  | .lit v t => rfl
  | .array xs => by simp only [evalAnyOrder, eval, evalsAny_id xs, relist_id]
  | .set xs => by simp only [evalAnyOrder, eval, evalsAny_id xs, relist_id]
  | .mapping xs => by simp only [evalAnyOrder, eval, evalPairsAny_id xs, bind_relist_id]
  | .bin op l r => by simp only [evalAnyOrder, eval, evalAny_id l, evalAny_id r, bind_relist_id]
  | .comp r x it c => by simp only [evalAnyOrder, eval, evalAny_id r, evalAny_id it, evalAny_id c, relist_id]
  | .contains c m => by simp only [evalAnyOrder, eval, evalAny_id c, evalAny_id m, relist_id]
  | .getAttr o name safe => by simp only [evalAnyOrder, eval, evalAny_id o, relist_id, bind_pure_self]
  | .getItem c i safe => by simp only [evalAnyOrder, eval, evalAny_id c, evalAny_id i, relist_id]; rfl
  | .getSlice c a b safe => by
    simp only [evalAnyOrder, eval, evalAny_id c, evalAny_id a, evalAny_id b, relist_id, bind_pure_self]
  | .sym name rt b => by simp only [evalAnyOrder, eval, bind_relist_id]
  | .call f args => by simp only [evalAnyOrder, eval, evalAny_id f, evalsAny_id args, bind_relist_id]
  | .tern c t f => by simp only [evalAnyOrder, eval, evalAny_id c, evalAny_id t, evalAny_id f]
  | .not e => by simp only [evalAnyOrder, eval, evalAny_id e, relist_id]
  | .neg e => by simp only [evalAnyOrder, eval, evalAny_id e, bind_relist_id]
theorem evalsAny_id : ∀ es : List Expr, evalsAnyOrder env dc (fun _ v => v) thing es = evals env dc thing es
  | [] => rfl
  | e :: es => by simp only [evalsAnyOrder, evals, evalAny_id e, evalsAny_id es]
theorem evalPairsAny_id : ∀ es : List (Expr × Expr), evalPairsAnyOrder env dc (fun _ v => v) thing es = evalPairs env dc thing es
  | [] => rfl
  | (k, v) :: es => by simp only [evalPairsAnyOrder, evalPairs, evalAny_id k, evalAny_id v, evalPairsAny_id es]
end
end

theorem reorders_id (off : TzDb) : Reorders off fun _ v => v := ⟨fun _ v => .refl v, fun _ _ h => h⟩

section
variable {env : Env} (hd : env.DataOk) (ho : Orderly env) {thing thing' : Value} (ht : Agrees env.utcoffset thing thing')
  {order : St → Value → Value} (hr : Reorders env.utcoffset order)
include hd ho ht hr

/-- **C85.** And such a rule gives the same when the sets in the value of every node are listed in any other order, which may
change from moment to moment: an evaluation in which Python lists all sets as it likes raises the same exception as the
evaluation that lists them in the order of insertion, or gives a result that differs only in the order of sets. -/
theorem sets_in_any_order {codec : LitCodec} {dct : DecCtx} {text : String} {p q : Proc} {e : Expr} {s : St}
    (h : (p.rule codec env dct text).1 = .ok e) (hs : e.Orderless) :
    InStep Shuffled (q.evaluate env e thing).1 (ruleEvalAnyOrder env order e thing' s).1 := by
  have h' : parseRule codec env dct p.line text p.st = (.ok e, (parseRule codec env dct p.line text p.st).2) := by
    rw [← h]; rfl
  obtain ⟨raw, _, -, hp, hc⟩ := parseRule_ok h'
  have hf := built_flat raw hp (build_built raw hc)
  have key := (((evalAny_tandem hd ho ht (reorders_id _) hr (dc := env.decCtx) e hf hs).mono fun _ _ h => h.shuffled).out
    q.st.reset s.reset (reset_alongside ..)).1
  rw [evalAny_id] at key
  exact key

/-- **C85.** The same for the text of the rule, when it calls no function but builtin ones other than `$map` and `$filter`, reads none of these attributes, and has
comprehensions only through arrays, mappings, comprehensions and slices written in it. -/
theorem sets_in_any_order_text {codec : LitCodec} {t : List Char} {raw : Raw} (hm : Means codec t raw) (hs : raw.Orderless)
    {e : Expr} {q : Proc} {s : St} (h : (Proc.new.rule codec env env.decCtx (String.ofList t)).1 = .ok e) :
    InStep Shuffled (q.evaluate env e thing).1 (ruleEvalAnyOrder env order e thing' s).1 := by
  refine sets_in_any_order hd ho ht hr h ?_
  have h' : parseRule codec env env.decCtx Proc.new.line (String.ofList t) Proc.new.st =
      (.ok e, (parseRule codec env env.decCtx Proc.new.line (String.ofList t) Proc.new.st).2) := by
    rw [← h]; rfl
  obtain ⟨raw', _, ho', hp, hc⟩ := parseRule_ok h'
  rw [hm, Except.ok.injEq, Prod.mk.injEq] at ho'
  obtain ⟨rfl, -⟩ := ho'
  exact built_orderless raw hp hs (build_built raw hc)

/-- **C85.** And it matches the same things. -/
theorem sets_in_any_order_matches {codec : LitCodec} {dct : DecCtx} {text : String} {p : Proc} {e : Expr} {s s' : St}
    (h : (p.rule codec env dct text).1 = .ok e) (hs : e.Orderless) :
    (ruleMatches env e thing s).1 = (ruleEvalAnyOrder env order e thing' s').1.map Value.truthy := by
  have key := sets_in_any_order hd ho ht hr (q := ⟨1, s⟩) (s := s') h hs
  simp only [Proc.evaluate] at key
  simp only [ruleMatches, M.bind_apply]
  rcases hx : ruleEval env e thing s with ⟨x, s1⟩
  rcases hy : ruleEvalAnyOrder env order e thing' s' with ⟨y, s2⟩
  rw [hx, hy] at key
  cases key with
  | error e => rfl
  | ok h => simp only [M.pure_apply, Except.map, shuffled_truthy h]
end

/-! ### Filters -/

section
variable {env : Env} (hd : env.DataOk) (ho : Orderly env)
include hd ho

/-- **C85.** A filter keeps the things at the same places of two lists whose things differ only in the order of sets, and ends
the same way (exhausted, or with the same exception). -/
theorem sets_without_order_filter {codec : LitCodec} {dct : DecCtx} {text : String} {p : Proc} {e : Expr}
    (h : (p.rule codec env dct text).1 = .ok e) (hs : e.Orderless) {things things' : List Value}
    (ht : List.Forall₂ (Agrees env.utcoffset) things things') : ∀ s s' : St,
    List.Forall₂ (Agrees env.utcoffset) (ruleFilter env e things s).1.1 (ruleFilter env e things' s').1.1 ∧
      (ruleFilter env e things s).1.2 = (ruleFilter env e things' s').1.2 := by
  induction ht with
  | nil => exact fun _ _ => ⟨.nil, rfl⟩
  | @cons t t' ts ts' htt _ ih =>
    intro s s'
    have hm := sets_without_order_matches hd ho htt (s := s) (s' := s') h hs
    rcases hx : ruleMatches env e t s with ⟨x, s1⟩
    rcases hy : ruleMatches env e t' s' with ⟨y, s2⟩
    rw [hx, hy] at hm
    simp only at hm
    subst hm
    simp only [ruleFilter, hx, hy]
    cases x with
    | error err => exact ⟨.nil, rfl⟩
    | ok b =>
      obtain ⟨h1, h2⟩ := ih s1 s2
      refine ⟨?_, h2⟩
      cases b with
      | true => exact .cons htt h1
      | false => exact h1
end

/-! ### An example -/

/-- a Python that lists a set backwards when a node gives it, and a set that is a member of an array not -/
def backwards : St → Value → Value
  | _, .set xs => .set xs.reverse
  | _, v => v

theorem backwards_reorders {off : TzDb} (htz : TzOk off) : Reorders off backwards where
  shuffled _ v := by
    cases v with
    | set xs => exact .set (List.reverse_perm xs).symm
    | _ => exact .refl _
  wf _ v h := by
    cases v with
    | set xs =>
      obtain ⟨h1, h2, h3⟩ := h
      refine ⟨allWF_iff.2 fun x hx => allWF_iff.1 h1 x (List.mem_reverse.1 hx), fun x hx => h2 x (List.mem_reverse.1 hx), ?_⟩
      rw [List.pairwise_reverse]
      exact h3.imp_of_mem fun {a b} _ hb hab => by
        cases hba : pyEq off b a with
        | false => rfl
        | true => rw [pyEq_symm htz b a (allWF_iff.1 h1 b hb) hba] at hab; cases hab
    | _ => exact h

/-- the result of the parsed tree, made into a rule, when sets are listed in the order that `order` gives -/
def runRawAnyOrder (env : Env) (order : St → Value → Value) (raw : Raw) (thing : Value) : Except Err Value :=
  match construct env env.decCtx raw St.init with
  | (.ok e, s) => (ruleEvalAnyOrder env order e thing s).1
  | (.error e, _) => .error e

/-- `x | {"c"}` over a thing with the set `{"a", "b"}` under `x`: the order of insertion, and the sets of every node listed
backwards (those of the operands and of the result). `x == {"b", "a"}` is true for both. -/
example :
    let thing := dictOf [("x", .set [.str "a", .str "b"])]
    let union : Raw := .bin (.bit .or) (.sym "x" false) (.set [.lit (.str "c")])
    let same : Raw := .bin .eq (.sym "x" false) (.set [.lit (.str "b"), .lit (.str "a")])
    Reorders sampleEnv.utcoffset backwards ∧ union.Orderless ∧ same.Orderless ∧
      runRawAnyOrder sampleEnv (fun _ v => v) union thing = .ok (.set [.str "a", .str "b", .str "c"]) ∧
      runRawAnyOrder sampleEnv backwards union thing = .ok (.set [.str "c", .str "a", .str "b"]) ∧
      runRawAnyOrder sampleEnv (fun _ v => v) same thing = .ok (.bool true) ∧
      runRawAnyOrder sampleEnv backwards same thing = .ok (.bool true) := by
  exact ⟨backwards_reorders sampleEnv_tzOk, ⟨trivial, trivial, trivial⟩, ⟨trivial, trivial, trivial, trivial⟩,
    by decide +kernel, by decide +kernel, by decide +kernel, by decide +kernel⟩

end RE
