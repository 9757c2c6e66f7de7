import Verif.Props.Built
import Verif.Props.Collections

/-!
# Constant nodes: evaluating them depends on nothing and changes nothing
-/

set_option linter.unusedVariables false

namespace RE

/-- the computation neither reads nor changes the state -/
def IsLift {α : Type} (m : M α) : Prop := ∃ x : Except Err α, m = M.lift x

theorem IsLift.lift {α : Type} (x : Except Err α) : IsLift (M.lift x) := ⟨x, rfl⟩
theorem IsLift.pure {α : Type} (a : α) : IsLift (Pure.pure a : M α) := ⟨.ok a, rfl⟩
theorem IsLift.throw {α : Type} (e : Err) : IsLift (M.throw e : M α) := ⟨.error e, rfl⟩

theorem IsLift.bind {α β : Type} {m : M α} {f : α → M β} (hm : IsLift m) (hf : ∀ a, IsLift (f a)) :
    IsLift (m >>= f) := by
  obtain ⟨x, rfl⟩ := hm
  cases x with
  | error e => exact ⟨.error e, rfl⟩
  | ok a => exact hf a

theorem IsLift.ite {α : Type} {p : Prop} [Decidable p] {m m' : M α} (h : IsLift m) (h' : IsLift m') :
    IsLift (if p then m else m') := by split <;> assumption

theorem seqM_lift : ∀ {ms : List (M Value)}, (∀ m ∈ ms, IsLift m) → IsLift (seqM ms)
  | [], _ => IsLift.pure _
  | m :: ms, h => (h m List.mem_cons_self).bind fun _ =>
      (seqM_lift fun m hm => h m (List.mem_cons_of_mem _ hm)).bind fun _ => IsLift.pure _

theorem setM_lift {off : TzDb} : ∀ {ms : List (M Value)} {acc : List Value}, (∀ m ∈ ms, IsLift m) →
    IsLift (setM off acc ms)
  | [], _, _ => IsLift.pure _
  | m :: ms, acc, h => (h m List.mem_cons_self).bind fun _ =>
      (setM_lift fun m hm => h m (List.mem_cons_of_mem _ hm)).ite (IsLift.throw _)

theorem mapValsM_lift : ∀ {ms : List (Value × M Value)}, (∀ p ∈ ms, IsLift p.2) → IsLift (mapValsM ms)
  | [], _ => IsLift.pure _
  | (k, m) :: ms, h => (h (k, m) List.mem_cons_self).bind fun _ =>
      (mapValsM_lift fun m hm => h m (List.mem_cons_of_mem _ hm)).bind fun _ => IsLift.pure _

theorem mapInsert_snd {α : Type} {off : TzDb} {P : α → Prop} {k : Value} {v : α} (hv : P v) :
    ∀ {acc : List (Value × α)}, (∀ p ∈ acc, P p.2) → ∀ p ∈ mapInsert off acc k v, P p.2
  | [], _, p, hp => by
    simp only [mapInsert, List.mem_cons, List.not_mem_nil, or_false] at hp
    subst hp; exact hv
  | (k', v') :: acc, h, p, hp => by
    simp only [mapInsert] at hp
    split at hp
    · rcases List.mem_cons.1 hp with rfl | hp
      · exact hv
      · exact h p (List.mem_cons_of_mem _ hp)
    · rcases List.mem_cons.1 hp with rfl | hp
      · exact h _ List.mem_cons_self
      · exact mapInsert_snd hv (fun p hp => h p (List.mem_cons_of_mem _ hp)) p hp

theorem mapM_lift {off : TzDb} {k : List (Value × Value) → M Value} (hk : ∀ x, IsLift (k x)) :
    ∀ {ms : List (M Value × M Value)} {acc : List (Value × M Value)},
    (∀ p ∈ ms, IsLift p.1 ∧ IsLift p.2) → (∀ p ∈ acc, IsLift p.2) →
    IsLift (mapKeysM off acc ms >>= fun ks => mapValsM ks >>= k)
  | [], acc, _, ha => (mapValsM_lift ha).bind hk
  | (m, v) :: ms, acc, h, ha => by
    have h0 := h (m, v) List.mem_cons_self
    have ih : ∀ acc, (∀ p ∈ acc, IsLift p.2) →
        IsLift (mapKeysM off acc ms >>= fun ks => mapValsM ks >>= k) :=
      fun acc ha => mapM_lift hk (fun p hp => h p (List.mem_cons_of_mem _ hp)) ha
    simp only [mapKeysM, bind_assoc]
    refine h0.1.bind fun key => (IsLift.lift _).bind fun kt => ?_
    split
    · exact ⟨_, rfl⟩
    split
    · exact ih _ (mapInsert_snd h0.2 ha)
    · exact ⟨_, rfl⟩

mutual
/-- Constants evaluate to the same thing, or raise the same exception, whatever the thing, the
arithmetic context, the scopes, and without any effect. -/
theorem reduced_const (env : Env) : ∀ e : Expr, e.reduced = true →
    ∃ x : Except Err Value, ∀ dc thing, eval env dc thing e = M.lift x
  | .lit v rt, _ => ⟨.ok v, fun _ _ => by simp only [eval]; rfl⟩
  | .array xs, h => by
    obtain ⟨ys, hy, hl⟩ := reduceds_const env xs (by simpa only [Expr.reduced] using h)
    obtain ⟨x, hx⟩ := (seqM_lift hl).bind (fun vs => IsLift.pure (Value.tuple vs))
    exact ⟨x, fun dc thing => by simp only [eval, hy]; exact hx⟩
  | .set xs, h => by
    obtain ⟨ys, hy, hl⟩ := reduceds_const env xs (by simpa only [Expr.reduced] using h)
    obtain ⟨x, hx⟩ := (setM_lift (off := env.utcoffset) (acc := []) hl).bind
      (fun vs => IsLift.pure (Value.set vs))
    exact ⟨x, fun dc thing => by simp only [eval, hy]; exact hx⟩
  | .mapping kvs, h => by
    obtain ⟨ys, hy, hl⟩ := reducedp_const env kvs (by simpa only [Expr.reduced] using h)
    obtain ⟨x, hx⟩ := mapM_lift (off := env.utcoffset)
      (fun items => IsLift.pure (Value.map .ordered items)) hl (acc := []) (by simp)
    exact ⟨x, fun dc thing => by simp only [eval, hy]; exact hx⟩
  | .bin .., h | .comp .., h | .contains .., h | .getAttr .., h | .getItem .., h | .getSlice .., h
  | .sym .., h | .call .., h | .tern .., h | .not _, h | .neg _, h => by simp [Expr.reduced] at h
theorem reduceds_const (env : Env) : ∀ es : List Expr, Expr.reducedList es = true →
    ∃ ms : List (M Value), (∀ dc thing, evals env dc thing es = ms) ∧ ∀ m ∈ ms, IsLift m
  | [], _ => ⟨[], fun _ _ => rfl, by simp⟩
  | e :: es, h => by
    simp only [Expr.reducedList, Bool.and_eq_true] at h
    obtain ⟨x, hx⟩ := reduced_const env e h.1
    obtain ⟨ms, hm, hl⟩ := reduceds_const env es h.2
    refine ⟨M.lift x :: ms, fun dc thing => by simp only [evals, hx, hm], ?_⟩
    intro m hm
    rcases List.mem_cons.1 hm with rfl | hm
    · exact ⟨x, rfl⟩
    · exact hl m hm
theorem reducedp_const (env : Env) : ∀ es : List (Expr × Expr), Expr.reducedPairs es = true →
    ∃ ms : List (M Value × M Value), (∀ dc thing, evalPairs env dc thing es = ms) ∧
      ∀ p ∈ ms, IsLift p.1 ∧ IsLift p.2
  | [], _ => ⟨[], fun _ _ => rfl, by simp⟩
  | (k, v) :: es, h => by
    simp only [Expr.reducedPairs, Bool.and_eq_true] at h
    obtain ⟨x, hx⟩ := reduced_const env k h.1.1
    obtain ⟨y, hy⟩ := reduced_const env v h.1.2
    obtain ⟨ms, hm, hl⟩ := reducedp_const env es h.2
    refine ⟨(M.lift x, M.lift y) :: ms, fun dc thing => by simp only [evalPairs, hx, hy, hm], ?_⟩
    intro m hm
    rcases List.mem_cons.1 hm with rfl | hm
    · exact ⟨⟨x, rfl⟩, ⟨y, rfl⟩⟩
    · exact hl m hm
end

end RE
