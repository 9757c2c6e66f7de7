import Verif.Props.RuleCalls
import Verif.Props.Scope

/-!
# A comprehension from the values of its parts (C70)
-/

set_option linter.unusedSimpArgs false
set_option linter.unusedVariables false
set_option linter.unusedSectionVars false

namespace RE

/-! ### Specification -/

/-- **Specification.** The same context, with the name `x` declared as `T` and resolved to `m`. -/
def Env.bindVar (env : Env) (x : String) (T : DataType) (m : Value) : Env :=
  env.alt (fun o n => if n = x then .ok m else env.resolver o n)
    (fun n => if n = x then .ok T else env.typeResolver n) env.defaultValue

/-- **Specification.** The members for which the condition gives a true value, as changed by the result; the condition
and the result are asked member by member, and the first exception ends it. -/
def eachOn (cond result : Value → Except Err Value) : List Value → Except Err (List Value)
  | [] => .ok []
  | x :: xs => do
    let c ← cond x
    if c.truthy then do
      let v ← result x
      let vs ← eachOn cond result xs
      .ok (v :: vs)
    else eachOn cond result xs

/-- **Specification.** `[result for x in it if cond]`: the iterable has to be a collection or a string; the result is an
array. -/
def compOn (it : Except Err Value) (cond result : Value → Except Err Value) : Except Err Value := do
  let v ← it
  let t ← fromValue v
  if t.isIterable then do
    let xs ← v.members
    let vs ← eachOn cond result xs
    .ok (.tuple vs)
  else .error .mismatch

/-- **Specification.** The rule text uses `x` neither as an attribute nor as the variable of a comprehension of its own
(nor is any variable in it bound twice), and does not use `$re_groups`. -/
def Clear (codec : LitCodec) (x : String) (t : List Char) : Prop :=
  ∃ raw, Means codec t raw ∧ raw.NoShadow [x] ∧ x ∉ raw.attrNames ∧
    ∀ u ∈ raw.uses [], ¬ (u.dollar = true ∧ u.name = "re_groups")

/-! ### Relations that allow scopes for other names than `x` -/

structure RelOn (x : String) (R : {α : Type} → M α → M α → Prop) : Prop extends RelBase R where
  withScope : ∀ {α : Type} (a : Assignment) {m m' : M α}, a.name ≠ x → R m m' → R (M.withScope a m) (M.withScope a m')

section
variable {x : String} {R : {α : Type} → M α → M α → Prop} (hR : RelOn x R)
include hR

theorem compM_relOn {var : String} (hv : var ≠ x) {c c' r r' : M Value} (hc : R c c') (hr : R r r') (xs : List Value) :
    R (compM var c r xs) (compM var c' r' xs) := by
  induction xs with
  | nil => exact hR.pure _
  | cons y xs ih =>
    refine hR.bind (hR.withScope _ hv ?_) fun o => hR.bind ih fun vs => hR.pure _
    exact hR.bind hc fun a => hR.ite (fun _ => hR.bind hr fun v => hR.pure _) (fun _ => hR.pure _)

variable {env : Env} {r : Value → String → Except Err Value} {t : String → Except Err DataType}
  {d : Option Value} {dc : DecCtx} {thing thing' : Value}
  {P : String → DataType → Bool → Prop} {Q : String → Prop}

mutual
theorem eval_relOn
    (hsym : ∀ name rt b, P name rt b →
      R (evalSymbol env thing name rt b) (evalSymbol (env.alt r t d) thing' name rt b))
    (hattr : ∀ o name, Q name → R (evalGetAttr env o name) (evalGetAttr (env.alt r t d) o name)) :
    ∀ (e : Expr) (bound : List String), x ∈ bound → e.NoShadow bound → e.allNames P Q →
      R (eval env dc thing e) (eval (env.alt r t d) dc thing' e)
  | .lit v _, _, _, _, _ => by simp only [eval]; exact hR.pure v
  | .array xs, bound, hx, hs, h => by
    simp only [eval]
    simp only [Expr.allNames] at h
    simp only [Expr.NoShadow] at hs
    exact hR.bind (seqM_rel hR.toRelBase (evals_relOn hsym hattr xs bound hx hs h)) fun _ => hR.pure _
  | .set xs, bound, hx, hs, h => by
    simp only [eval]
    simp only [Expr.allNames] at h
    simp only [Expr.NoShadow] at hs
    exact hR.bind (setM_rel hR.toRelBase _ (evals_relOn hsym hattr xs bound hx hs h) []) fun _ => hR.pure _
  | .mapping kvs, bound, hx, hs, h => by
    simp only [eval]
    simp only [Expr.allNames] at h
    simp only [Expr.NoShadow] at hs
    rw [← bind_assoc, ← bind_assoc]
    exact hR.bind (mapM_rel hR.toRelBase _ (evalp_relOn hsym hattr kvs bound hx hs h) .nil) fun _ => hR.pure _
  | .bin op l r', bound, hx, hs, h => by
    simp only [eval]
    simp only [Expr.allNames] at h
    simp only [Expr.NoShadow] at hs
    exact evalBin_rel hR.toRelBase env r t d dc op (eval_relOn hsym hattr l bound hx hs.1 h.1)
      (eval_relOn hsym hattr r' bound hx hs.2 h.2)
  | .comp result var iterable cond, bound, hx, hs, h => by
    simp only [eval]
    simp only [Expr.allNames] at h
    simp only [Expr.NoShadow] at hs
    obtain ⟨h1, h2, h3, h4⟩ := hs
    refine hR.bind (eval_relOn hsym hattr iterable bound hx h1 h.2.1) fun it =>
      hR.bind (hR.lift _) fun ty => hR.ite (fun _ => ?_) (fun _ => hR.throw _)
    exact hR.bind (hR.lift _) fun xs =>
      hR.bind (compM_relOn hR (fun e => h2 (by have e : var = x := e; rw [e]; exact hx))
        (eval_relOn hsym hattr cond _ (List.mem_append_left _ hx) h3 h.2.2)
        (eval_relOn hsym hattr result _ (List.mem_append_left _ hx) h4 h.1) xs) fun _ => hR.pure _
  | .contains c m, bound, hx, hs, h => by
    simp only [eval]
    simp only [Expr.allNames] at h
    simp only [Expr.NoShadow] at hs
    exact hR.bind (eval_relOn hsym hattr c bound hx hs.1 h.1) fun _ =>
      hR.bind (hR.lift _) fun _ => hR.bind (eval_relOn hsym hattr m bound hx hs.2 h.2) fun _ =>
      hR.bind (hR.lift _) fun _ => hR.pure _
  | .getAttr o name safe, bound, hx, hs, h => by
    simp only [eval]
    simp only [Expr.allNames] at h
    simp only [Expr.NoShadow] at hs
    exact hR.bind (eval_relOn hsym hattr o bound hx hs h.1) fun v =>
      hR.ite (fun _ => hR.pure _) (fun _ => hattr v name h.2)
  | .getItem c i safe, bound, hx, hs, h => by
    simp only [eval]
    simp only [Expr.allNames] at h
    simp only [Expr.NoShadow] at hs
    refine hR.bind (eval_relOn hsym hattr c bound hx hs.1 h.1) fun cv => ?_
    refine hR.ite (fun _ => hR.ite (fun _ => hR.pure _) (fun _ => hR.throw _)) (fun _ => ?_)
    refine hR.bind (eval_relOn hsym hattr i bound hx hs.2 h.2) fun iv => ?_
    refine hR.bind (hR.lift _) fun o => ?_
    cases o
    · exact hR.ite (fun _ => hR.pure _) (fun _ => hR.throw _)
    · exact hR.pure _
  | .getSlice c a b safe, bound, hx, hs, h => by
    simp only [eval]
    simp only [Expr.allNames] at h
    simp only [Expr.NoShadow] at hs
    refine hR.bind (eval_relOn hsym hattr c bound hx hs.1 h.1) fun cv => ?_
    exact hR.ite (fun _ => hR.ite (fun _ => hR.pure _) (fun _ => hR.throw _)) (fun _ =>
      evalSlice_rel hR.toRelBase env r t d cv (eval_relOn hsym hattr a bound hx hs.2.1 h.2.1)
        (eval_relOn hsym hattr b bound hx hs.2.2 h.2.2))
  | .sym name rt b, bound, hx, hs, h => by
    simp only [eval]
    simp only [Expr.allNames] at h
    exact hsym name rt b h
  | .call f args, bound, hx, hs, h => by
    simp only [eval]
    simp only [Expr.allNames] at h
    simp only [Expr.NoShadow] at hs
    refine hR.bind (eval_relOn hsym hattr f bound hx hs.1 h.1) fun fv => hR.ite (fun _ => ?_) (fun _ => hR.throw _)
    exact hR.bind (seqM_rel hR.toRelBase (evals_relOn hsym hattr args bound hx hs.2 h.2)) fun vs =>
      evalCall_rel hR.toRelBase env r t d dc _ _ _ _
  | .tern c a b, bound, hx, hs, h => by
    simp only [eval]
    simp only [Expr.allNames] at h
    simp only [Expr.NoShadow] at hs
    exact hR.bind (eval_relOn hsym hattr c bound hx hs.1 h.1) fun _ =>
      hR.ite (fun _ => eval_relOn hsym hattr a bound hx hs.2.1 h.2.1)
        (fun _ => eval_relOn hsym hattr b bound hx hs.2.2 h.2.2)
  | .not e, bound, hx, hs, h => by
    simp only [eval]
    simp only [Expr.allNames] at h
    simp only [Expr.NoShadow] at hs
    exact hR.bind (eval_relOn hsym hattr e bound hx hs h) fun _ => hR.pure _
  | .neg e, bound, hx, hs, h => by
    simp only [eval]
    simp only [Expr.allNames] at h
    simp only [Expr.NoShadow] at hs
    exact hR.bind (eval_relOn hsym hattr e bound hx hs h) fun _ => hR.lift _
theorem evals_relOn
    (hsym : ∀ name rt b, P name rt b →
      R (evalSymbol env thing name rt b) (evalSymbol (env.alt r t d) thing' name rt b))
    (hattr : ∀ o name, Q name → R (evalGetAttr env o name) (evalGetAttr (env.alt r t d) o name)) :
    ∀ (es : List Expr) (bound : List String), x ∈ bound → Expr.NoShadowList bound es → Expr.allNamesList P Q es →
      List.Forall₂ (fun m m' => R m m') (evals env dc thing es) (evals (env.alt r t d) dc thing' es)
  | [], _, _, _, _ => .nil
  | e :: es, bound, hx, hs, h => by
    simp only [Expr.allNamesList] at h
    simp only [Expr.NoShadowList] at hs
    exact .cons (eval_relOn hsym hattr e bound hx hs.1 h.1) (evals_relOn hsym hattr es bound hx hs.2 h.2)
theorem evalp_relOn
    (hsym : ∀ name rt b, P name rt b →
      R (evalSymbol env thing name rt b) (evalSymbol (env.alt r t d) thing' name rt b))
    (hattr : ∀ o name, Q name → R (evalGetAttr env o name) (evalGetAttr (env.alt r t d) o name)) :
    ∀ (es : List (Expr × Expr)) (bound : List String), x ∈ bound → Expr.NoShadowPairs bound es →
      Expr.allNamesPairs P Q es → RelPairs R (evalPairs env dc thing es) (evalPairs (env.alt r t d) dc thing' es)
  | [], _, _, _, _ => .nil
  | (k, v) :: es, bound, hx, hs, h => by
    simp only [Expr.allNamesPairs] at h
    simp only [Expr.NoShadowPairs] at hs
    exact .cons ⟨eval_relOn hsym hattr k bound hx hs.1 h.1, eval_relOn hsym hattr v bound hx hs.2.1 h.2.1⟩
      (evalp_relOn hsym hattr es bound hx hs.2.2 h.2.2)
end

end

section
variable {x : String} {R : {α : Type} → M α → M α → Prop} (hR : RelOn x R)
include hR
variable {env : Env} {r : Value → String → Except Err Value} {t : String → Except Err DataType}
  {d : Option Value} {dct : DecCtx} {Q : String → Prop}
  (hev : ∀ e, e.allNames (fun _ _ _ => False) Q → e.NoShadow [x] →
    R (eval env dct .none e) (eval (env.alt r t d) dct .none e))
  (hsym : ∀ name b, R (mkSym env name b) (mkSym (env.alt r t d) name b))
include hev hsym

theorem foldLit_relOn {e : Expr} (h : e.allNames (fun _ _ _ => False) Q) (hs : e.NoShadow [x]) :
    R (foldLit env dct e) (foldLit (env.alt r t d) dct e) :=
  hR.bind (hev e h hs) fun _ => hR.lift _

mutual
theorem build_relOn : ∀ (raw : Raw) (bound : List String), x ∈ bound → raw.NoShadow bound → (∀ n ∈ raw.attrNames, Q n) →
    R (build env dct raw) (build (env.alt r t d) dct raw)
  | .lit v, _, _, _, _ => by simp only [build]; exact hR.lift _
  | .floatLit s, _, _, _, _ => by simp only [build]; exact hR.lift _
  | .datetimeLit s, _, _, _, _ => by simp only [build]; exact hR.lift _
  | .timedeltaLit s, _, _, _, _ => by simp only [build]; exact hR.lift _
  | .array xs, bound, hx, hs, h => by
    simp only [Raw.attrNames] at h
    simp only [Raw.NoShadow] at hs
    simp only [build]; exact hR.bind (builds_relOn xs bound hx hs h) fun _ => hR.pure _
  | .set xs, bound, hx, hs, h => by
    simp only [Raw.attrNames] at h
    simp only [Raw.NoShadow] at hs
    simp only [build]; exact hR.bind (builds_relOn xs bound hx hs h) fun _ => hR.pure _
  | .mapping kvs, bound, hx, hs, h => by
    simp only [Raw.attrNames] at h
    simp only [Raw.NoShadow] at hs
    simp only [build]; exact hR.bind (buildp_relOn kvs bound hx hs h) fun _ => hR.lift _
  | .bin op l y, bound, hx, hs, h => by
    simp only [Raw.attrNames, List.mem_append] at h
    simp only [Raw.NoShadow] at hs
    simp only [build]
    refine hR.bind (build_relOn l bound hx hs.1 fun n hn => h n (.inl hn)) fun l' =>
      hR.bind (build_relOn y bound hx hs.2 fun n hn => h n (.inr hn)) fun y' => ?_
    refine hR.bind (hR.lift _) fun _ => hR.ite (fun h => foldLit_relOn hR hev hsym ?_ ?_) (fun _ => hR.pure _)
    · rw [Bool.and_eq_true] at h
      simp only [Expr.allNames]
      exact ⟨l'.allNames_of_reduced h.1, y'.allNames_of_reduced h.2⟩
    · rw [Bool.and_eq_true] at h
      simp only [Expr.NoShadow]
      exact ⟨reduced_noShadow _ _ h.1, reduced_noShadow _ _ h.2⟩
  | .comp result var iterable cond, bound, hx, hs, h => by
    simp only [Raw.attrNames, List.mem_append] at h
    simp only [Raw.NoShadow] at hs
    obtain ⟨h1, h2, h3, h4⟩ := hs
    simp only [build]
    refine hR.bind (build_relOn iterable bound hx h1 fun n hn => h n (.inl (.inr hn))) fun it => hR.bind (hR.lift _) fun ty => ?_
    refine hR.bind (hR.withScope _ (fun e => h2 (by have e : var = x := e; rw [e]; exact hx)) (hR.bind (build_relOn cond _ (List.mem_append_left _ hx) h3 fun n hn => h n (.inr hn)) fun _ =>
      hR.bind (build_relOn result _ (List.mem_append_left _ hx) h4 fun n hn => h n (.inl (.inl hn))) fun _ => hR.pure _)) fun p => hR.pure _
  | .contains c m, bound, hx, hs, h => by
    simp only [Raw.attrNames, List.mem_append] at h
    simp only [Raw.NoShadow] at hs
    simp only [build]
    refine hR.bind (build_relOn c bound hx hs.1 fun n hn => h n (.inl hn)) fun l' =>
      hR.bind (build_relOn m bound hx hs.2 fun n hn => h n (.inr hn)) fun y' => ?_
    refine hR.bind (hR.lift _) fun _ => hR.ite (fun h => hR.bind (hev _ ?_ ?_) fun _ => hR.pure _) (fun _ => hR.pure _)
    · rw [Bool.and_eq_true] at h
      simp only [Expr.allNames]
      exact ⟨l'.allNames_of_reduced h.1, y'.allNames_of_reduced h.2⟩
    · rw [Bool.and_eq_true] at h
      simp only [Expr.NoShadow]
      exact ⟨reduced_noShadow _ _ h.1, reduced_noShadow _ _ h.2⟩
  | .getAttr o name safe, bound, hx, hs, h => by
    simp only [Raw.attrNames, List.mem_cons] at h
    simp only [Raw.NoShadow] at hs
    simp only [build]
    refine hR.bind (build_relOn o bound hx hs fun n hn => h n (.inr hn)) fun o' => ?_
    refine hR.bind (hR.lift _) fun _ => hR.ite (fun hr => ?_) (fun _ => hR.pure _)
    refine hR.bind (foldLit_relOn hR hev hsym ?_ ?_) fun e => ?_
    · simp only [Expr.allNames]
      exact ⟨o'.allNames_of_reduced hr, h name (.inl rfl)⟩
    · simp only [Expr.NoShadow]
      exact reduced_noShadow _ _ hr
    split
    · exact hR.ite (fun _ => hR.pure _) (fun _ => hR.pure _)
    · exact hR.pure _
  | .getItem c i safe, bound, hx, hs, h => by
    simp only [Raw.attrNames, List.mem_append] at h
    simp only [Raw.NoShadow] at hs
    simp only [build]
    refine hR.bind (build_relOn c bound hx hs.1 fun n hn => h n (.inl hn)) fun l' =>
      hR.bind (build_relOn i bound hx hs.2 fun n hn => h n (.inr hn)) fun y' => ?_
    refine hR.bind (hR.lift _) fun _ => hR.ite (fun _ => hR.pure _) (fun _ => hR.ite (fun h => foldLit_relOn hR hev hsym ?_ ?_) (fun _ => hR.pure _))
    · rw [Bool.and_eq_true] at h
      simp only [Expr.allNames]
      exact ⟨l'.allNames_of_reduced h.1, y'.allNames_of_reduced h.2⟩
    · rw [Bool.and_eq_true] at h
      simp only [Expr.NoShadow]
      exact ⟨reduced_noShadow _ _ h.1, reduced_noShadow _ _ h.2⟩
  | .getSlice c a b safe, bound, hx, hs, h => by
    simp only [Raw.attrNames, List.mem_append] at h
    simp only [Raw.NoShadow] at hs
    simp only [build]
    refine hR.bind (build_relOn a bound hx hs.2.1 fun n hn => h n (.inl (.inr hn))) fun a' =>
      hR.bind (build_relOn b bound hx hs.2.2 fun n hn => h n (.inr hn)) fun b' =>
      hR.bind (build_relOn c bound hx hs.1 fun n hn => h n (.inl (.inl hn))) fun c' => ?_
    refine hR.bind (hR.lift _) fun _ => hR.ite (fun h => foldLit_relOn hR hev hsym ?_ ?_) (fun _ => hR.pure _)
    · rw [Bool.and_eq_true, Bool.and_eq_true] at h
      simp only [Expr.allNames]
      exact ⟨c'.allNames_of_reduced h.1.1, a'.allNames_of_reduced h.1.2, b'.allNames_of_reduced h.2⟩
    · rw [Bool.and_eq_true, Bool.and_eq_true] at h
      simp only [Expr.NoShadow]
      exact ⟨reduced_noShadow _ _ h.1.1, reduced_noShadow _ _ h.1.2, reduced_noShadow _ _ h.2⟩
  | .sym name b, _, _, _, _ => by simp only [build]; exact hsym name b
  | .call f args, bound, hx, hs, h => by
    simp only [Raw.attrNames, List.mem_append] at h
    simp only [Raw.NoShadow] at hs
    simp only [build]
    refine hR.bind (build_relOn f bound hx hs.1 fun n hn => h n (.inl hn)) fun f' =>
      hR.bind (builds_relOn args bound hx hs.2 fun n hn => h n (.inr hn)) fun as => ?_
    unfold mkCall
    refine hR.ite (fun _ => ?_) (fun _ => hR.bind (hR.lift _) fun _ => ?_)
    all_goals
      refine hR.ite (fun h => foldLit_relOn hR hev hsym ?_ ?_) (fun _ => hR.pure _)
      · rw [Bool.and_eq_true] at h
        simp only [Expr.allNames]
        exact ⟨f'.allNames_of_reduced h.1, Expr.allNamesList_of_reduced as h.2⟩
      · rw [Bool.and_eq_true] at h
        simp only [Expr.NoShadow]
        exact ⟨reduced_noShadow _ _ h.1, reduceds_noShadow _ _ h.2⟩
  | .tern c a b, bound, hx, hs, h => by
    simp only [Raw.attrNames, List.mem_append] at h
    simp only [Raw.NoShadow] at hs
    simp only [build]
    exact hR.bind (build_relOn c bound hx hs.1 fun n hn => h n (.inl (.inl hn))) fun _ =>
      hR.bind (build_relOn a bound hx hs.2.1 fun n hn => h n (.inl (.inr hn))) fun _ =>
      hR.bind (build_relOn b bound hx hs.2.2 fun n hn => h n (.inr hn)) fun _ => hR.pure _
  | .not e, bound, hx, hs, h => by
    simp only [Raw.attrNames] at h
    simp only [Raw.NoShadow] at hs
    simp only [build]
    refine hR.bind (build_relOn e bound hx hs h) fun e' => ?_
    refine hR.ite (fun h => hR.bind (hev _ ?_ ?_) fun _ => hR.pure _) (fun _ => hR.pure _)
    · simp only [Expr.allNames]; exact e'.allNames_of_reduced h
    · simp only [Expr.NoShadow]; exact reduced_noShadow _ _ h
  | .neg e, bound, hx, hs, h => by
    simp only [Raw.attrNames] at h
    simp only [Raw.NoShadow] at hs
    simp only [build]
    refine hR.bind (build_relOn e bound hx hs h) fun e' => ?_
    refine hR.ite (fun h => ?_) (fun _ => hR.pure _)
    split
    · exact hR.bind (hev _ (by simp [Expr.allNames]) (by simp [Expr.NoShadow])) fun _ => hR.pure _
    · exact hR.bind (hev _ (by simp [Expr.allNames]) (by simp [Expr.NoShadow])) fun _ => hR.pure _
    · exact hR.throw _
theorem builds_relOn : ∀ (xs : List Raw) (bound : List String), x ∈ bound → Raw.NoShadowList bound xs →
    (∀ n ∈ Raw.attrNamesList xs, Q n) → R (buildList env dct xs) (buildList (env.alt r t d) dct xs)
  | [], _, _, _, _ => by simp only [buildList]; exact hR.pure _
  | y :: xs, bound, hx, hs, h => by
    simp only [Raw.attrNamesList, List.mem_append] at h
    simp only [Raw.NoShadowList] at hs
    simp only [buildList]
    exact hR.bind (build_relOn y bound hx hs.1 fun n hn => h n (.inl hn)) fun _ =>
      hR.bind (builds_relOn xs bound hx hs.2 fun n hn => h n (.inr hn)) fun _ => hR.pure _
theorem buildp_relOn : ∀ (xs : List (Raw × Raw)) (bound : List String), x ∈ bound → Raw.NoShadowPairs bound xs →
    (∀ n ∈ Raw.attrNamesPairs xs, Q n) → R (buildPairs env dct xs) (buildPairs (env.alt r t d) dct xs)
  | [], _, _, _, _ => by simp only [buildPairs]; exact hR.pure _
  | (k, v) :: xs, bound, hx, hs, h => by
    simp only [Raw.attrNamesPairs, List.mem_append] at h
    simp only [Raw.NoShadowPairs] at hs
    simp only [buildPairs]
    exact hR.bind (build_relOn k bound hx hs.1 fun n hn => h n (.inl (.inl hn))) fun _ =>
      hR.bind (build_relOn v bound hx hs.2.1 fun n hn => h n (.inl (.inr hn))) fun _ =>
      hR.bind (buildp_relOn xs bound hx hs.2.2 fun n hn => h n (.inr hn)) fun _ => hR.pure _
end
end

/-! ### A variable in scope, and the same name resolved by the context -/

/-- with the variable `a` in the outermost scope, the first computation does what the second does without it -/
structure Shift (a : Assignment) {α : Type} (m m' : M α) : Prop where
  run : ∀ s s2 : St, s.scopes = a :: s2.scopes → s.groups = s2.groups → (∀ b ∈ s2.scopes, b.name ≠ a.name) →
    (m s).1 = (m' s2).1 ∧ (m s).2.scopes = s.scopes ∧ (m' s2).2.scopes = s2.scopes ∧ (m s).2.groups = (m' s2).2.groups

theorem shift_on (a : Assignment) : RelOn a.name (@Shift a) where
  lift x := ⟨fun _ _ _ hg _ => ⟨rfl, rfl, rfl, hg⟩⟩
  bind := by
    intro α β m m' f f' hm hf
    refine ⟨fun s s2 h hg hn => ?_⟩
    obtain ⟨h1, h2, h3, h4⟩ := hm.run s s2 h hg hn
    rw [M.bind_apply, M.bind_apply]
    rcases e1 : m s with ⟨x, t⟩
    rcases e2 : m' s2 with ⟨x', t'⟩
    rw [e1] at h1 h2 h4
    rw [e2] at h1 h3 h4
    simp only at h1 h2 h3 h4
    subst h1
    cases x with
    | error e => exact ⟨rfl, h2, h3, h4⟩
    | ok v =>
      obtain ⟨g1, g2, g3, g4⟩ := (hf v).run t t' (by rw [h2, h3, h]) h4 (by rw [h3]; exact hn)
      exact ⟨g1, g2.trans h2, g3.trans h3, g4⟩
  setGroups _ _ := ⟨fun _ _ h hg _ => ⟨rfl, rfl, rfl, rfl⟩⟩
  logCall _ _ _ _ := ⟨fun _ _ h hg _ => ⟨rfl, rfl, rfl, hg⟩⟩
  rethrow := by
    intro α e m m' hm
    refine ⟨fun s s2 h hg hn => ?_⟩
    obtain ⟨h1, h2, h3, h4⟩ := hm.run s s2 h hg hn
    unfold M.catchErr
    rcases e1 : m s with ⟨x, t⟩
    rcases e2 : m' s2 with ⟨x', t'⟩
    rw [e1] at h1 h2 h4
    rw [e2] at h1 h3 h4
    simp only at h1 h2 h3 h4
    subst h1
    cases x <;> exact ⟨rfl, h2, h3, h4⟩
  withScope := by
    intro α b m m' hb hm
    refine ⟨fun s s2 h hg hn => ?_⟩
    obtain ⟨h1, h2, h3, h4⟩ := hm.run { s with scopes := s.scopes ++ [b] } { s2 with scopes := s2.scopes ++ [b] }
      (by simp [h]) hg (by
        intro c hc
        rcases List.mem_append.1 hc with hc | hc
        · exact hn c hc
        · rw [List.mem_singleton.1 hc]; exact hb)
    simp only [M.withScope]
    exact ⟨h1, by rw [h2]; simp, by rw [h3]; simp, h4⟩

theorem lookup_other {a : Assignment} {S : List Assignment} {n : String} (h : a.name ≠ n) :
    scopeLookup (a :: S) n = scopeLookup S n := by
  simp [scopeLookup, List.find?_cons, h]

theorem scope_none {x : String} {S : List Assignment} (h : ∀ b ∈ S, b.name ≠ x) : scopeLookup S x = none := by
  simpa [scopeLookup, List.find?_eq_none] using h

theorem ctxResolve_shift (env : Env) (x : String) (T : DataType) (m u : Value) (o : Value) (n : String) (b : Bool)
    (T' : DataType) (hu : n = x → u = m) :
    Shift ⟨x, u, T'⟩ (ctxResolve env o n b) (ctxResolve (env.bindVar x T m) o n b) := by
  refine ⟨fun s s2 h hg hn => ?_⟩
  unfold ctxResolve
  have hb : ∀ g, builtinValue (env.bindVar x T m) g n = builtinValue env g n := fun g => rfl
  cases b with
  | true =>
    simp only [if_true, hb, ← hg]
    cases builtinValue env s.groups n <;> exact ⟨rfl, rfl, rfl, hg⟩
  | false =>
    simp only [Bool.false_eq_true, if_false]
    by_cases hx : n = x
    · cases hu hx
      subst hx
      rw [scope_none hn, h]
      simp [scopeLookup, Env.bindVar, Env.alt, hg, h]
    · have hl : scopeLookup s.scopes n = scopeLookup s2.scopes n := by
        rw [h]; exact lookup_other (a := ⟨x, u, T'⟩) (fun e => hx e.symm)
      rw [hl]
      cases scopeLookup s2.scopes n with
      | some c => exact ⟨rfl, rfl, rfl, hg⟩
      | none => exact ⟨by simp [Env.bindVar, Env.alt, hx], rfl, rfl, hg⟩

theorem symbol_shift (env : Env) (x : String) (T T' : DataType) (m thing : Value) (n : String) (rt : DataType) (b : Bool) :
    Shift ⟨x, m, T'⟩ (evalSymbol env thing n rt b) (evalSymbol (env.bindVar x T m) thing n rt b) := by
  have hB := shift_on ⟨x, m, T'⟩
  refine hB.bind ?_ fun v => hB.lift _
  refine ⟨fun s s2 h hg hn => ?_⟩
  obtain ⟨h1, h2, h3, h4⟩ := (ctxResolve_shift env x T m m thing n b T' fun _ => rfl).run s s2 h hg hn
  unfold M.catchErr
  rcases e1 : ctxResolve env thing n b s with ⟨y, t⟩
  rcases e2 : ctxResolve (env.bindVar x T m) thing n b s2 with ⟨y', t'⟩
  rw [e1] at h1 h2 h4
  rw [e2] at h1 h3 h4
  simp only at h1 h2 h3 h4
  subst h1
  have hd : (env.bindVar x T m).defaultValue = env.defaultValue := rfl
  cases y with
  | ok v => exact ⟨rfl, h2, h3, h4⟩
  | error e =>
    simp only [hd]
    cases isSymErr e <;> cases env.defaultValue <;> exact ⟨rfl, h2, h3, h4⟩

theorem attr_shift (env : Env) (x : String) (T T' : DataType) (m u o : Value) (n : String) (hu : n = x → u = m) :
    Shift ⟨x, u, T'⟩ (evalGetAttr env o n) (evalGetAttr (env.bindVar x T m) o n) := by
  refine ⟨fun s s2 h hg hn => ?_⟩
  obtain ⟨h1, h2, h3, h4⟩ := (ctxResolve_shift env x T m u o n false T' hu).run s s2 h hg hn
  unfold evalGetAttr
  have hr : resolveAttr (env.bindVar x T m) o n = resolveAttr env o n := rfl
  have hd : (env.bindVar x T m).defaultValue = env.defaultValue := rfl
  rcases e1 : ctxResolve env o n false s with ⟨y, t⟩
  rcases e2 : ctxResolve (env.bindVar x T m) o n false s2 with ⟨y', t'⟩
  rw [e1] at h1 h2 h4
  rw [e2] at h1 h3 h4
  simp only at h1 h2 h3 h4
  subst h1
  rw [hr, hd]
  cases resolveAttr env o n with
  | ok v => exact ⟨rfl, rfl, rfl, hg⟩
  | error e =>
    simp only
    cases isAttrErr e with
    | false => exact ⟨rfl, rfl, rfl, hg⟩
    | true =>
      cases y with
      | ok v => exact ⟨rfl, h2, h3, h4⟩
      | error e =>
        simp only [if_true]
        cases isSymErr e <;> cases env.defaultValue <;> exact ⟨rfl, h2, h3, h4⟩

theorem mkSym_shift (env : Env) (x : String) (T : DataType) (m u : Value) (n : String) (b : Bool) :
    Shift ⟨x, u, T⟩ (mkSym env n b) (mkSym (env.bindVar x T m) n b) := by
  have hB := shift_on ⟨x, u, T⟩
  refine hB.bind (m := M.modify _) (m' := M.modify _) ⟨fun s s2 h hg hn => ⟨rfl, rfl, rfl, hg⟩⟩ fun _ => hB.bind ?_ fun t => hB.lift (.ok _)
  refine ⟨fun s s2 h hg hn => ?_⟩
  unfold ctxResolveType
  cases b with
  | true => exact ⟨rfl, rfl, rfl, hg⟩
  | false =>
    simp only [Bool.false_eq_true, if_false]
    by_cases hx : n = x
    · subst hx
      rw [scope_none hn, h]
      simp [scopeLookup, Env.bindVar, Env.alt, hg, h]
    · have hl : scopeLookup s.scopes n = scopeLookup s2.scopes n := by
        rw [h]; exact lookup_other (a := ⟨x, u, T⟩) (fun e => hx e.symm)
      rw [hl]
      cases scopeLookup s2.scopes n with
      | some c => exact ⟨rfl, rfl, rfl, hg⟩
      | none => exact ⟨by simp [Env.bindVar, Env.alt, hx], rfl, rfl, hg⟩

/-- building with the variable in scope is building with the name declared -/
theorem build_shift (env : Env) (dct : DecCtx) (x : String) (T : DataType) (m u : Value) (raw : Raw)
    (hs : raw.NoShadow [x]) (ha : x ∉ raw.attrNames) :
    Shift ⟨x, u, T⟩ (build env dct raw) (build (env.bindVar x T m) dct raw) := by
  have hB : RelOn x (@Shift ⟨x, u, T⟩) := shift_on ⟨x, u, T⟩
  refine build_relOn hB (Q := (· ≠ x)) (fun e he hs => ?_) (fun n b => mkSym_shift env x T m u n b) raw [x] (by simp) hs
    (fun n hn e => ha (e ▸ hn))
  exact eval_relOn hB (P := fun _ _ _ => False) (Q := (· ≠ x)) (fun _ _ _ h => h.elim)
    (fun o n hn => attr_shift env x T T m u o n fun e => (hn e).elim) e [x] (by simp) hs he

/-- evaluating with the variable in scope is evaluating with the name resolved to the member -/
theorem eval_shift (env : Env) (dc : DecCtx) (thing : Value) (x : String) (T T' : DataType) (m : Value) (e : Expr)
    (hs : e.NoShadow [x]) {P : String → DataType → Bool → Prop} {Q : String → Prop} (he : e.allNames P Q) :
    Shift ⟨x, m, T'⟩ (eval env dc thing e) (eval (env.bindVar x T m) dc thing e) := by
  have hB : RelOn x (@Shift ⟨x, m, T'⟩) := shift_on ⟨x, m, T'⟩
  exact eval_relOn hB (fun n rt b _ => symbol_shift env x T T' m thing n rt b)
    (fun o n _ => attr_shift env x T T' m m o n fun _ => rfl) e [x] (by simp) hs he

/-! ### The rules -/

theorem outcome_any {codec : LitCodec} {env : Env} {dct : DecCtx} {acts : List TextAct} {t : List Char} {raw : Raw}
    (h : Means codec t raw) (s : St) (hs : s.scopes = []) : outcome codec env dct acts t = (build env dct raw s).1 := by
  obtain ⟨s0, hs0, ho⟩ := outcome_of (env := env) (dct := dct) (acts := acts) h
  rw [ho]
  obtain ⟨sc, g, sy, lg⟩ := s
  obtain ⟨sc', g', sy', lg'⟩ := s0
  simp only at hs hs0
  subst hs hs0
  obtain ⟨y, sy2, l, hx⟩ := construct_framed2 env dct raw []
  simp only [construct] at hx
  rw [hx, hx]

theorem outcome_clear {codec : LitCodec} {env : Env} {dct : DecCtx} {acts : List TextAct} {t : List Char} {raw : Raw}
    {x : String} (T : DataType) (m u : Value) (h : Means codec t raw) (hs : raw.NoShadow [x]) (ha : x ∉ raw.attrNames)
    (s : St) (hsc : s.scopes = [⟨x, u, T⟩]) :
    (build env dct raw s).1 = outcome codec (env.bindVar x T m) dct acts t ∧ (build env dct raw s).2.scopes = s.scopes := by
  obtain ⟨h1, h2, -, -⟩ := (build_shift env dct x T m u raw hs ha).run s { s with scopes := [] } hsc rfl (by simp)
  exact ⟨h1.trans (outcome_any h { s with scopes := [] } rfl).symm, h2⟩

/-- **Specification.** The type of the variable of a comprehension over something of type `t`. -/
inductive VarType : DataType → DataType → Prop where
  | unknown : VarType .undefined .undefined
  | member {t u : DataType} : Members t u → VarType t u

theorem varType_iff (t u : DataType) : VarType t u ↔ iterVarType t = .ok u := by
  constructor
  · rintro (_ | ⟨_ | _ | _⟩) <;> rfl
  · intro h
    cases t <;> simp only [iterVarType, DataType.iterableType, Except.ok.injEq, reduceCtorEq] at h <;> subst h
    all_goals first | exact .unknown | exact .member (by constructor)

/-- what `withScope` does when the computation is known -/
theorem withScope_out {α : Type} (a : Assignment) (m : M α) (s : St) :
    (M.withScope a m s).1 = (m { s with scopes := s.scopes ++ [a] }).1 := rfl

theorem build_comp {codec : LitCodec} {env : Env} {dct : DecCtx} {ra rc rr : Raw} {x : String} {l : Expr} {T : DataType}
    {c r : List Char} (hc : Means codec c rc) (hr : Means codec r rr)
    (sc : rc.NoShadow [x]) (ac : x ∉ rc.attrNames) (sr : rr.NoShadow [x]) (ar : x ∉ rr.attrNames)
    (hl : ∀ s : St, s.scopes = [] → ∃ s', build env dct ra s = (.ok l, s') ∧ s'.scopes = [])
    (hT : iterVarType l.rt = .ok T) (m : Value) (acts acts' : List TextAct) (s : St) (hs : s.scopes = []) :
    (build env dct (.comp rr x ra rc) s).1 = (do
      let j ← outcome codec (env.bindVar x T m) dct acts c
      let i ← outcome codec (env.bindVar x T m) dct acts' r
      .ok (.comp i x l j)) := by
  obtain ⟨s1, h1, hs1⟩ := hl s hs
  simp only [RE.build]
  rw [bind_ok' h1, hT, lift_ok_bind]
  obtain ⟨k1, k2⟩ := outcome_clear (env := env) (dct := dct) (acts := acts) T m .undef hc sc ac
    { s1 with scopes := s1.scopes ++ [⟨x, .undef, T⟩] } (by simp [hs1])
  rw [M.bind_apply]
  have key : (M.withScope ⟨x, .undef, T⟩ (do
      let c ← build env dct rc
      let r ← build env dct rr
      pure (c, r) : M (Expr × Expr)) s1).1 = (do
        let j ← outcome codec (env.bindVar x T m) dct acts c
        let i ← outcome codec (env.bindVar x T m) dct acts' r
        .ok (j, i)) := by
    rw [withScope_out, ← k1]
    refine bind_out fun j s' hj => ?_
    obtain ⟨k3, -⟩ := outcome_clear (env := env) (dct := dct) (acts := acts') T m .undef hr sr ar s'
      (by rw [hj] at k2; rw [k2]; simp [hs1])
    rw [← k3]
    exact bind_out fun i s' hi => rfl
  rcases hm : (M.withScope ⟨x, .undef, T⟩ (do
      let c ← build env dct rc
      let r ← build env dct rr
      pure (c, r) : M (Expr × Expr)) s1) with ⟨y, s2⟩
  rw [hm] at key
  simp only at key
  subst key
  cases outcome codec (env.bindVar x T m) dct acts c with
  | error e => rfl
  | ok j => cases outcome codec (env.bindVar x T m) dct acts' r <;> rfl

/-- **C70.** `[r for x in a if c]` is accepted if `a` is a collection or of unknown type, and the condition and the
result are accepted (in this order) in the context in which `x` is declared as a member of `a`; otherwise it is refused
as they are, or, if `a` is no collection, with EvaluationError. -/
theorem comprehension_accepted {codec : LitCodec} {env : Env} {dct : DecCtx} {a c r x : List Char} {l : Expr}
    (hx : IsWord x) (ha : Part codec env dct a l) (hc : Clear codec (String.ofList x) c)
    (hr : Clear codec (String.ofList x) r) (acts acts' acts'' : List TextAct) :
    let out := outcome codec env dct acts
      ('[' :: (r ++ (" for ".toList ++ (x ++ (" in ".toList ++ (a ++ (" if ".toList ++ (c ++ [']']))))))))
    (∀ T m, VarType l.rt T → out = (do
      let j ← outcome codec (env.bindVar (String.ofList x) T m) dct acts' c
      let i ← outcome codec (env.bindVar (String.ofList x) T m) dct acts'' r
      .ok (.comp i (String.ofList x) l j))) ∧
    ((¬ ∃ T, VarType l.rt T) → out = .error (.eng .evaluation)) := by
  obtain ⟨ra, hma, hba⟩ := ha.build
  obtain ⟨rc, hmc, sc, ac, -⟩ := hc
  obtain ⟨rr, hmr, sr, ar, -⟩ := hr
  have ho := outcome_any (env := env) (dct := dct) (acts := acts) (means_comp_if hmr hma hmc hx) St.init rfl
  refine ⟨fun T m hT => ?_, fun hn => ?_⟩
  · exact ho.trans (build_comp hmc hmr sc ac sr ar hba ((varType_iff _ _).1 hT) m acts' acts'' St.init rfl)
  · obtain ⟨s1, h1, -⟩ := hba St.init rfl
    refine ho.trans ?_
    simp only [RE.build]
    rw [bind_ok' h1]
    cases hT : iterVarType l.rt with
    | ok T => exact (hn ⟨T, (varType_iff _ _).2 hT⟩).elim
    | error e =>
      rw [lift_err_bind]
      revert hT
      unfold iterVarType
      split
      · simp
      · split
        · simp
        · rintro ⟨⟩; rfl

/-- **C70.** The same without a condition. -/
theorem comprehension_accepted_plain {codec : LitCodec} {env : Env} {dct : DecCtx} {a r x : List Char} {l : Expr}
    (hx : IsWord x) (ha : Part codec env dct a l) (hr : Clear codec (String.ofList x) r) (acts acts' : List TextAct) :
    let out := outcome codec env dct acts
      ('[' :: (r ++ (" for ".toList ++ (x ++ (" in ".toList ++ (a ++ [']']))))))
    (∀ T m, VarType l.rt T → out = (do
      let i ← outcome codec (env.bindVar (String.ofList x) T m) dct acts' r
      .ok (.comp i (String.ofList x) l (.lit (.bool true) .boolean)))) ∧
    ((¬ ∃ T, VarType l.rt T) → out = .error (.eng .evaluation)) := by
  obtain ⟨ra, hma, hba⟩ := ha.build
  obtain ⟨rr, hmr, sr, ar, -⟩ := hr
  have ho := outcome_any (env := env) (dct := dct) (acts := acts) (means_comp hmr hma hx) St.init rfl
  refine ⟨fun T m hT => ?_, fun hn => ?_⟩
  · have hm : Means codec "true".toList (.lit (.bool true)) := (means_value_words codec).1
    refine ho.trans ((build_comp hm hmr (by simp [Raw.NoShadow]) (by simp [Raw.attrNames]) sr ar hba
      ((varType_iff _ _).1 hT) m acts' acts' St.init rfl).trans ?_)
    rw [outcome_any hm St.init rfl]
    rfl
  · obtain ⟨s1, h1, -⟩ := hba St.init rfl
    refine ho.trans ?_
    simp only [RE.build]
    rw [bind_ok' h1]
    cases hT : iterVarType l.rt with
    | ok T => exact (hn ⟨T, (varType_iff _ _).2 hT⟩).elim
    | error e =>
      rw [lift_err_bind]
      revert hT
      unfold iterVarType
      split
      · simp
      · split
        · simp
        · rintro ⟨⟩; rfl

/-- a part in a context with the name declared, whatever it is resolved to -/
theorem part_any {codec : LitCodec} {env : Env} {dct : DecCtx} {t : List Char} {x : String} {T : DataType} {m : Value}
    {e : Expr} (hc : Clear codec x t) (h : Part codec (env.bindVar x T m) dct t e) (m' : Value) :
    Part codec (env.bindVar x T m') dct t e := by
  obtain ⟨raw, hm, sc, ac, -⟩ := hc
  obtain ⟨acts, ho⟩ := h.outcome
  refine ⟨⟨raw, hm⟩, [], ?_⟩
  have h1 := (outcome_clear (env := env) (dct := dct) (acts := acts) T m .undef hm sc ac ⟨[⟨x, .undef, T⟩], .none, [], []⟩ rfl).1
  have h2 := (outcome_clear (env := env) (dct := dct) (acts := []) T m' .undef hm sc ac ⟨[⟨x, .undef, T⟩], .none, [], []⟩ rfl).1
  exact h2.symm.trans (h1.trans ho)

theorem clear_noGroups {codec : LitCodec} {t : List Char} {x : String} (h : Clear codec x t) : NoGroups codec t := by
  obtain ⟨raw, hm, -, -, hu⟩ := h
  exact ⟨raw, hm, hu⟩

/-- a clear part, evaluated with the member in scope -/
theorem part_in_scope {codec : LitCodec} {env : Env} {dct : DecCtx} {t : List Char} {x : String} {T T' : DataType}
    {m0 : Value} {e : Expr} (hc : Clear codec x t) (h : Part codec (env.bindVar x T m0) dct t e) (thing m : Value)
    (s s0 : St) (hs : s.scopes = [⟨x, m, T'⟩]) (hs0 : s0.scopes = []) :
    (eval env env.decCtx thing e s).1 = (eval (env.bindVar x T m) env.decCtx thing e s0).1 := by
  have hg := clear_noGroups hc
  have hp := part_any hc h m
  obtain ⟨raw, hm, sc, ac, -⟩ := hc
  obtain ⟨raw', hm', hb⟩ := hp.build
  cases means_unique hm hm'
  obtain ⟨s', hb, -⟩ := hb St.init rfl
  obtain ⟨h1, -⟩ := (eval_shift env env.decCtx thing x T T' m e (built_noShadow raw [x] sc (build_built raw hb))
    (build_names raw hb)).run s { s with scopes := [] } hs rfl (by simp)
  rw [h1]
  exact (noGroups_sameOut hp hg _ thing).out _ _ (by simp [hs0])

theorem each_out {x : String} {c r : M Value} {cond result : Value → Except Err Value}
    (hc : ∀ m (s : St), s.scopes = [⟨x, m, .undefined⟩] → (c s).1 = cond m ∧ (c s).2.scopes = s.scopes)
    (hr : ∀ m (s : St), s.scopes = [⟨x, m, .undefined⟩] → (r s).1 = result m ∧ (r s).2.scopes = s.scopes) :
    ∀ (xs : List Value) (s : St), s.scopes = [] → (compM x c r xs s).1 = eachOn cond result xs
  | [], s, hs => rfl
  | y :: ys, s, hs => by
    simp only [compM, eachOn]
    obtain ⟨h1, h2⟩ := hc y { s with scopes := s.scopes ++ [⟨x, y, .undefined⟩] } (by simp [hs])
    rw [M.bind_apply]
    simp only [M.withScope, M.bind_apply]
    rcases e1 : c { s with scopes := s.scopes ++ [⟨x, y, .undefined⟩] } with ⟨o, s1⟩
    rw [e1] at h1 h2
    simp only at h1 h2
    rw [← h1]
    cases o with
    | error e => rfl
    | ok v =>
      simp only [M.ite_app, except_ok_bind]
      by_cases ht : v.truthy = true
      · rw [if_pos ht, if_pos ht]
        obtain ⟨h3, h4⟩ := hr y s1 (by rw [h2]; simp [hs])
        rw [M.bind_apply]
        rcases e2 : r s1 with ⟨o2, s2⟩
        rw [e2] at h3 h4
        simp only at h3 h4
        rw [← h3]
        cases o2 with
        | error e => rfl
        | ok w =>
          have ih := each_out hc hr ys { s2 with scopes := s2.scopes.dropLast } (by rw [h4, h2]; simp [hs])
          simp only [M.pure_apply, except_ok_bind]
          rw [← ih]
          generalize compM x c r ys { s2 with scopes := s2.scopes.dropLast } = o
          obtain ⟨o3, s3⟩ := o
          cases o3 <;> rfl
      · rw [if_neg ht, if_neg ht]
        have ih := each_out hc hr ys { s1 with scopes := s1.scopes.dropLast } (by rw [h2]; simp [hs])
        simp only [M.pure_apply]
        rw [← ih]
        generalize compM x c r ys { s1 with scopes := s1.scopes.dropLast } = o
        obtain ⟨o3, s3⟩ := o
        cases o3 <;> rfl

theorem comp_out {env : Env} {l i j : Expr} {x : String} {thing : Value} {s : St} (hs : s.scopes = [])
    {cond result : Value → Except Err Value}
    (hc : ∀ m (s : St), s.scopes = [⟨x, m, .undefined⟩] → (eval env env.decCtx thing j s).1 = cond m)
    (hr : ∀ m (s : St), s.scopes = [⟨x, m, .undefined⟩] → (eval env env.decCtx thing i s).1 = result m) :
    (eval env env.decCtx thing (.comp i x l j) s).1 = compOn (eval env env.decCtx thing l s).1 cond result := by
  simp only [eval, compOn]
  refine bind_out fun v s1 h1 => lift_bind_out fun t ht => ?_
  have hs1 : s1.scopes = [] := by
    have := eval_scopes env env.decCtx thing l s
    rw [h1] at this
    exact this.trans hs
  rw [M.ite_app]
  by_cases hi : t.isIterable = true
  · rw [if_pos hi, if_pos hi]
    refine lift_bind_out fun xs hxs => ?_
    rw [← each_out (fun m s h => ⟨hc m s h, eval_scopes ..⟩) (fun m s h => ⟨hr m s h, eval_scopes ..⟩) xs s1 hs1]
    exact bind_out fun vs s2 h2 => rfl
  · rw [if_neg hi, if_neg hi]; rfl

/-- **C70.** What `[r for x in a if c]` gives, from what its parts give: for each member `m` of what `a` gives, in
order, what the rules `c` and `r` give in the context in which `x` is `m`. -/
theorem comprehension_of_rules {codec : LitCodec} {env : Env} {dct : DecCtx} {a c r x : List Char} {l i j e : Expr}
    {T : DataType} {m0 : Value} (hx : IsWord x) (ha : Part codec env dct a l) (hT : VarType l.rt T)
    (hc : Part codec (env.bindVar (String.ofList x) T m0) dct c j) (hcc : Clear codec (String.ofList x) c)
    (hr : Part codec (env.bindVar (String.ofList x) T m0) dct r i) (hrc : Clear codec (String.ofList x) r)
    (acts : List TextAct)
    (h : outcome codec env dct acts
      ('[' :: (r ++ (" for ".toList ++ (x ++ (" in ".toList ++ (a ++ (" if ".toList ++ (c ++ [']'])))))))) = .ok e)
    (thing : Value) (p : Proc) :
    (p.evaluate env e thing).1 = compOn (p.evaluate env l thing).1
      (fun m => (p.evaluate (env.bindVar (String.ofList x) T m) j thing).1)
      (fun m => (p.evaluate (env.bindVar (String.ofList x) T m) i thing).1) := by
  obtain ⟨acts1, h1⟩ := hc.outcome
  obtain ⟨acts2, h2⟩ := hr.outcome
  rw [(comprehension_accepted hx ha hcc hrc acts acts1 acts2).1 T m0 hT, h1, h2] at h
  cases h
  exact comp_out rfl (fun m s hs => part_in_scope hcc hc thing m s p.st.reset hs rfl)
    (fun m s hs => part_in_scope hrc hr thing m s p.st.reset hs rfl)

/-- **C70.** The same without a condition: every member counts. -/
theorem comprehension_of_rules_plain {codec : LitCodec} {env : Env} {dct : DecCtx} {a r x : List Char} {l i e : Expr}
    {T : DataType} {m0 : Value} (hx : IsWord x) (ha : Part codec env dct a l) (hT : VarType l.rt T)
    (hr : Part codec (env.bindVar (String.ofList x) T m0) dct r i) (hrc : Clear codec (String.ofList x) r)
    (acts : List TextAct)
    (h : outcome codec env dct acts
      ('[' :: (r ++ (" for ".toList ++ (x ++ (" in ".toList ++ (a ++ [']'])))))) = .ok e)
    (thing : Value) (p : Proc) :
    (p.evaluate env e thing).1 = compOn (p.evaluate env l thing).1 (fun _ => .ok (.bool true))
      (fun m => (p.evaluate (env.bindVar (String.ofList x) T m) i thing).1) := by
  obtain ⟨acts2, h2⟩ := hr.outcome
  rw [(comprehension_accepted_plain hx ha hrc acts acts2).1 T m0 hT, h2] at h
  cases h
  exact comp_out rfl (fun m s hs => by simp only [eval]; rfl)
    (fun m s hs => part_in_scope hrc hr thing m s p.st.reset hs rfl)

/-- A case of the hypotheses: `[(x) + (1) for x in y if (x) > (1)]`, where `y` is the array of 1, 2 and 3. -/
example (codec : LitCodec) : ∃ l i j e,
    Part codec sampleEnv sampleEnv.decCtx ['y'] l ∧ VarType l.rt .undefined ∧
    Part codec (sampleEnv.bindVar (String.ofList ['x']) .undefined .none) sampleEnv.decCtx
      (par ['x'] ++ ' ' :: (spelling .GT ++ ' ' :: par ['1'])) j ∧
    Clear codec (String.ofList ['x']) (par ['x'] ++ ' ' :: (spelling .GT ++ ' ' :: par ['1'])) ∧
    Part codec (sampleEnv.bindVar (String.ofList ['x']) .undefined .none) sampleEnv.decCtx
      (par ['x'] ++ ' ' :: (spelling .ADD ++ ' ' :: par ['1'])) i ∧
    Clear codec (String.ofList ['x']) (par ['x'] ++ ' ' :: (spelling .ADD ++ ' ' :: par ['1'])) ∧
    outcome codec sampleEnv sampleEnv.decCtx []
      ('[' :: ((par ['x'] ++ ' ' :: (spelling .ADD ++ ' ' :: par ['1'])) ++ (" for ".toList ++ (['x'] ++ (" in ".toList ++
        (['y'] ++ (" if ".toList ++ ((par ['x'] ++ ' ' :: (spelling .GT ++ ' ' :: par ['1'])) ++ [']'])))))))) = .ok e ∧
    (Proc.new.evaluate sampleEnv e (dictOf [("y", .tuple [.int 1, .int 2, .int 3])])).1 =
      .ok (.tuple [.dec (.ofInt 3), .dec (.ofInt 4)]) := by
  have hx : Means codec ['x'] (.sym "x" false) := means_sym x_word
  have hy : Means codec ['y'] (.sym "y" false) := means_sym ⟨by decide, by decide⟩
  have h1 : Means codec ['1'] (.floatLit "1") := means_number one_number
  have hg := means_bin hx h1 .GT (by decide)
  have ha := means_bin hx h1 .ADD (by decide)
  refine ⟨_, _, _, _, ⟨⟨_, hy⟩, [], (rule_of_means hy).trans rfl⟩, .unknown, ⟨⟨_, hg⟩, [], (rule_of_means hg).trans rfl⟩, ?_,
    ⟨⟨_, ha⟩, [], (rule_of_means ha).trans rfl⟩, ?_, (rule_of_means (means_comp_if ha hy hg x_word)).trans rfl, ?_⟩
  · exact ⟨_, hg, ⟨trivial, trivial⟩, by decide, by simp [Raw.uses, meaning]⟩
  · exact ⟨_, ha, ⟨trivial, trivial⟩, by decide, by simp [Raw.uses, meaning]⟩
  · decide +kernel

end RE
