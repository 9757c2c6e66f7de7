import Verif.Model.Graph
import Verif.Props.Laws

/-!
# The diagram of a rule (C75)
-/

set_option linter.unusedSimpArgs false
set_option linter.unusedVariables false
set_option linter.unusedTactic false
set_option linter.unreachableTactic false
set_option linter.unnecessarySeqFocus false

namespace RE

/-! ### Specification -/

/-- the arguments of a call with their roles, the first being number `n` -/
def numbered (n : Nat) : List Expr → List (String × Expr)
  | [] => []
  | x :: xs => ("argument #" ++ toString n, x) :: numbered (n + 1) xs

/-- **Specification.** The parts of a node a diagram shows, with the roles they have in it, in the order of their positions. The
keys and values of mappings, and the condition `true`, are not shown. -/
def Expr.shownParts : Expr → List (String × Expr)
  | .lit .. | .mapping _ | .sym .. => []
  | .array xs | .set xs => xs.map fun x => ("", x)
  | .bin _ l r => [("left", l), ("right", r)]
  | .comp r _ it c =>
    [("result", r), ("iterable", it)] ++ (match c with
      | .lit (.bool true) _ => []
      | c => [("condition", c)])
  | .contains c m => [("container", c), ("member", m)]
  | .getAttr o _ _ => [("", o)]
  | .getItem c i _ => [("container", c), ("item", i)]
  | .getSlice c a b _ => [("container", c), ("start", a), ("stop", b)]
  | .call f args => ("function", f) :: numbered 1 args
  | .tern c t f => [("condition", c), ("true case", t), ("false case", f)]
  | .not e | .neg e => [("", e)]

/-- **Specification.** The label of a node. -/
def Expr.label : Expr → DLabel
  | .lit v rt => if rt.isCompound then .plain (literalClass rt) else .value (literalClass rt) v
  | .array _ => .plain "ArrayExpression"
  | .set _ => .plain "SetExpression"
  | .mapping _ => .plain "MappingExpression"
  | .bin op _ _ => .type op.cls op.typeName
  | .comp _ var _ _ => .var "ComprehensionExpression" var
  | .contains .. => .plain "ContainsExpression"
  | .getAttr _ name _ => .name "GetAttributeExpression" name
  | .getItem .. => .plain "GetItemExpression"
  | .getSlice .. => .plain "GetSliceExpression"
  | .sym name _ _ => .name "SymbolExpression" name
  | .call .. => .plain "FunctionCallExpression"
  | .tern .. => .plain "TernaryExpression"
  | .not _ => .type "UnaryExpression" "not"
  | .neg _ => .type "UnaryExpression" "uminus"

/-- **Specification.** `d` is the part of `e` at a position: the node itself, or the part at the rest of the position of the part
with the first number. -/
inductive ShownAt : Expr → List Nat → Expr → Prop
  | root (e : Expr) : ShownAt e [] e
  | step {e c d : Expr} {role : String} {i : Nat} {π : List Nat} (h : e.shownParts[i]? = some (role, c))
      (h' : ShownAt c π d) : ShownAt e (i :: π) d

/-! ### Drawings, part by part -/

/-- the drawing of parts at the positions from `n` on, each followed by its edge -/
def drawParts (id : List Nat) (n : Nat) : List (String × Expr) → List DCmd
  | [] => []
  | (role, x) :: xs => draw (id ++ [n]) x ++ [.edge id (id ++ [n]) role] ++ drawParts id (n + 1) xs

theorem drawMembers_parts (id : List Nat) (xs : List Expr) (n : Nat) :
    drawMembers id n xs = drawParts id n (xs.map fun x => ("", x)) := by
  induction xs generalizing n with
  | nil => simp [drawMembers, drawParts]
  | cons x xs ih => simp [drawMembers, drawParts, ih]

theorem drawArguments_parts (id : List Nat) (xs : List Expr) (n : Nat) :
    drawArguments id n xs = drawParts id n (numbered n xs) := by
  induction xs generalizing n with
  | nil => simp [drawArguments, drawParts, numbered]
  | cons x xs ih => simp [drawArguments, drawParts, numbered, ih]

/-- every node draws itself and its parts -/
theorem draw_perm (id : List Nat) (e : Expr) : (draw id e).Perm (.node id e.label :: drawParts id 0 e.shownParts) := by
  have two : ∀ (A B : List DCmd) (x y : DCmd), (A ++ B ++ [x, y]).Perm (A ++ [x] ++ (B ++ [y] ++ [])) := by
    intro A B x y
    rw [List.append_nil, List.append_assoc, List.append_assoc]
    refine List.Perm.append_left A ?_
    rw [show [x, y] = [x] ++ [y] from rfl, ← List.append_assoc, ← List.append_assoc]
    exact (List.perm_append_comm).append_right [y]
  have three : ∀ (A B C : List DCmd) (x y z : DCmd),
      (A ++ B ++ C ++ [x, y, z]).Perm (A ++ [x] ++ (B ++ [y] ++ (C ++ [z] ++ []))) := by
    intro A B C x y z
    rw [List.perm_iff_count]
    intro q
    simp only [List.count_append, List.count_cons, List.count_nil]
    omega
  cases e with
  | lit v rt => simp [draw, Expr.label, Expr.shownParts, drawParts]
  | mapping kvs => simp [draw, Expr.label, Expr.shownParts, drawParts]
  | sym n rt b => simp [draw, Expr.label, Expr.shownParts, drawParts]
  | array xs => simp [draw, Expr.label, Expr.shownParts, drawMembers_parts]
  | set xs => simp [draw, Expr.label, Expr.shownParts, drawMembers_parts]
  | bin op l r => exact (two ..).cons _
  | contains c m => exact (two ..).cons _
  | getItem c i s => exact (two ..).cons _
  | getSlice c a b s => exact (three ..).cons _
  | tern c t f => exact (three ..).cons _
  | getAttr o n s => simp [draw, Expr.label, Expr.shownParts, drawParts]
  | not e => simp [draw, Expr.label, Expr.shownParts, drawParts]
  | neg e => simp [draw, Expr.label, Expr.shownParts, drawParts]
  | call f args => simp [draw, Expr.label, Expr.shownParts, drawParts, drawArguments_parts]
  | comp r var it c =>
    rw [draw.eq_def]
    dsimp only [Expr.label, Expr.shownParts]
    split
    · simp [drawParts]
    · rename_i hc
      split
      · exact (hc _ rfl).elim
      · simp [drawParts]

theorem part_smaller {e c : Expr} {role : String} (h : (role, c) ∈ e.shownParts) : sizeOf c < sizeOf e := by
  have hn : ∀ (xs : List Expr) (n : Nat), (role, c) ∈ numbered n xs → c ∈ xs := by
    intro xs
    induction xs with
    | nil => simp [numbered]
    | cons x xs ih =>
      intro n hm
      simp only [numbered, List.mem_cons, Prod.mk.injEq] at hm
      rcases hm with ⟨-, rfl⟩ | hm
      · simp
      · exact List.mem_cons_of_mem _ (ih _ hm)
  cases e <;> simp only [Expr.shownParts, List.mem_cons, List.mem_append, List.mem_map, Prod.mk.injEq, List.not_mem_nil,
    or_false, and_false, exists_false, false_and] at h
  case array xs =>
    obtain ⟨x, hx, -, rfl⟩ := h
    have := List.sizeOf_lt_of_mem hx
    simp <;> omega
  case set xs =>
    obtain ⟨x, hx, -, rfl⟩ := h
    have := List.sizeOf_lt_of_mem hx
    simp <;> omega
  case call f args =>
    rcases h with ⟨-, rfl⟩ | h
    · simp <;> omega
    · have := List.sizeOf_lt_of_mem (hn _ _ h)
      simp <;> omega
  case comp r v it cd =>
    rcases h with (⟨-, rfl⟩ | ⟨-, rfl⟩) | h
    · simp <;> omega
    · simp <;> omega
    · split at h
      · simp at h
      · simp only [List.mem_singleton, Prod.mk.injEq] at h
        obtain ⟨-, rfl⟩ := h
        simp <;> omega
  all_goals first
    | (rcases h with ⟨-, rfl⟩ | ⟨-, rfl⟩ | ⟨-, rfl⟩ <;> simp <;> omega)
    | (rcases h with ⟨-, rfl⟩ | ⟨-, rfl⟩ <;> simp <;> omega)
    | (obtain ⟨-, rfl⟩ := h; simp <;> omega)

theorem mem_drawParts {id : List Nat} {c : DCmd} {ps : List (String × Expr)} {n : Nat} :
    c ∈ drawParts id n ps ↔
      ∃ i role x, ps[i]? = some (role, x) ∧ (c ∈ draw (id ++ [n + i]) x ∨ c = .edge id (id ++ [n + i]) role) := by
  induction ps generalizing n with
  | nil => simp [drawParts]
  | cons q ps ih =>
    obtain ⟨role, x⟩ := q
    simp only [drawParts, List.mem_append, List.mem_singleton, ih]
    constructor
    · rintro (h | ⟨i, r, y, hi, h⟩)
      · exact ⟨0, role, x, rfl, by simpa using h⟩
      · refine ⟨i + 1, r, y, by simpa using hi, ?_⟩
        rw [show n + (i + 1) = n + 1 + i by omega]
        exact h
    · rintro ⟨i, r, y, hi, h⟩
      cases i with
      | zero =>
        simp only [List.getElem?_cons_zero, Option.some.injEq, Prod.mk.injEq] at hi
        obtain ⟨rfl, rfl⟩ := hi
        exact .inl (by simpa using h)
      | succ i =>
        refine .inr ⟨i, r, y, by simpa using hi, ?_⟩
        rw [show n + 1 + i = n + (i + 1) by omega]
        exact h

theorem mem_draw {id : List Nat} {c : DCmd} {e : Expr} :
    c ∈ draw id e ↔ c = .node id e.label ∨
      ∃ i role x, e.shownParts[i]? = some (role, x) ∧ (c ∈ draw (id ++ [i]) x ∨ c = .edge id (id ++ [i]) role) := by
  rw [(draw_perm id e).mem_iff, List.mem_cons, mem_drawParts]
  simp

/-- the nodes of a drawing -/
theorem node_drawn : ∀ (n : Nat) (e : Expr), sizeOf e < n → ∀ (id π : List Nat) (lab : DLabel),
    .node π lab ∈ draw id e ↔ ∃ τ d, π = id ++ τ ∧ ShownAt e τ d ∧ lab = d.label
  | 0, _, h => by omega
  | n + 1, e, hn => by
    intro id π lab
    rw [mem_draw]
    constructor
    · rintro (h | ⟨i, role, x, hi, h | h⟩)
      · simp only [DCmd.node.injEq] at h
        exact ⟨[], e, by simp [h.1], .root e, h.2⟩
      · have hs := part_smaller (List.mem_of_getElem? hi)
        obtain ⟨τ, d, rfl, hd, rfl⟩ := (node_drawn n x (by omega) _ _ _).1 h
        exact ⟨i :: τ, d, by simp, .step hi hd, rfl⟩
      · cases h
    · rintro ⟨τ, d, rfl, hd, rfl⟩
      cases hd with
      | root => exact .inl (by simp)
      | step hi hd' =>
        rename_i c role i τ'
        have hs := part_smaller (List.mem_of_getElem? hi)
        exact .inr ⟨i, role, c, hi, .inl ((node_drawn n c (by omega) _ _ _).2 ⟨τ', d, by simp, hd', rfl⟩)⟩

theorem edge_drawn : ∀ (n : Nat) (e : Expr), sizeOf e < n → ∀ (id π π' : List Nat) (role : String),
    .edge π π' role ∈ draw id e ↔
      ∃ τ d i c, π = id ++ τ ∧ ShownAt e τ d ∧ d.shownParts[i]? = some (role, c) ∧ π' = π ++ [i]
  | 0, _, h => by omega
  | n + 1, e, hn => by
    intro id π π' role
    rw [mem_draw]
    constructor
    · rintro (h | ⟨i, r, x, hi, h | h⟩)
      · cases h
      · have hs := part_smaller (List.mem_of_getElem? hi)
        obtain ⟨τ, d, j, c, rfl, hd, hj, rfl⟩ := (edge_drawn n x (by omega) _ _ _ _).1 h
        exact ⟨i :: τ, d, j, c, by simp, .step hi hd, hj, rfl⟩
      · simp only [DCmd.edge.injEq] at h
        obtain ⟨rfl, rfl, rfl⟩ := h
        exact ⟨[], e, i, x, by simp, .root e, hi, rfl⟩
    · rintro ⟨τ, d, j, c, rfl, hd, hj, rfl⟩
      cases hd with
      | root => exact .inr ⟨j, role, c, hj, .inr (by simp)⟩
      | step hi hd' =>
        rename_i x r i τ'
        have hs := part_smaller (List.mem_of_getElem? hi)
        exact .inr ⟨i, r, x, hi, .inl ((edge_drawn n x (by omega) _ _ _ _).2 ⟨τ', d, j, c, by simp, hd', hj, rfl⟩)⟩

/-- what a command is about: the node, or the target of the edge -/
def DCmd.about : DCmd → List Nat
  | .node id _ => id
  | .edge _ t _ => t

theorem about_drawn {n : Nat} {e : Expr} (hn : sizeOf e < n) {id : List Nat} {c : DCmd} (h : c ∈ draw id e) :
    ∃ τ, c.about = id ++ τ ∧ (τ = [] → c = .node id e.label) := by
  cases c with
  | node π lab =>
    obtain ⟨τ, d, rfl, hd, rfl⟩ := (node_drawn n e hn _ _ _).1 h
    refine ⟨τ, rfl, ?_⟩
    rintro rfl
    cases hd
    simp
  | edge π π' role =>
    obtain ⟨τ, d, i, c, rfl, hd, hi, rfl⟩ := (edge_drawn n e hn _ _ _ _).1 h
    exact ⟨τ ++ [i], by simp [DCmd.about], by simp⟩

theorem draw_nodup : ∀ (n : Nat) (e : Expr), sizeOf e < n → ∀ id : List Nat, (draw id e).Nodup
  | 0, _, h => by omega
  | n + 1, e, hn => by
    intro id
    rw [(draw_perm id e).nodup_iff, List.nodup_cons]
    have hparts : ∀ (ps : List (String × Expr)) (k : Nat), (∀ q ∈ ps, sizeOf q.2 < n) → (drawParts id k ps).Nodup := by
      intro ps
      induction ps with
      | nil => simp [drawParts]
      | cons q ps ih =>
        obtain ⟨role, x⟩ := q
        intro k hq
        have hx := hq (role, x) (by simp)
        simp only [drawParts]
        rw [List.nodup_append, List.nodup_append]
        refine ⟨⟨draw_nodup n x hx _, by simp, ?_⟩, ih (k + 1) fun q hq' => hq q (by simp [hq']), ?_⟩
        · rintro a ha b hb rfl
          simp only [List.mem_singleton] at hb
          subst hb
          obtain ⟨τ, d, i, c, h1, -⟩ := (edge_drawn n x hx _ _ _ _).1 ha
          have := congrArg List.length h1
          simp at this
        · rintro a ha b hb rfl
          have h1 : ∃ τ, a.about = id ++ [k] ++ τ := by
            rcases List.mem_append.1 ha with ha | ha
            · obtain ⟨τ, h, -⟩ := about_drawn hx ha
              exact ⟨τ, h⟩
            · simp only [List.mem_singleton] at ha
              subst ha
              exact ⟨[], by simp [DCmd.about]⟩
          obtain ⟨τ, h1⟩ := h1
          obtain ⟨i, r, y, hi, h2⟩ := mem_drawParts.1 hb
          have h3 : ∃ τ, a.about = id ++ [k + 1 + i] ++ τ := by
            rcases h2 with h2 | rfl
            · obtain ⟨τ, h, -⟩ := about_drawn (hq (r, y) (List.mem_cons_of_mem _ (List.mem_of_getElem? hi))) h2
              exact ⟨τ, h⟩
            · exact ⟨[], by simp [DCmd.about]⟩
          obtain ⟨τ', h3⟩ := h3
          rw [h1] at h3
          simp only [List.append_assoc, List.append_cancel_left_eq, List.cons_append, List.nil_append, List.cons.injEq] at h3
          omega
    refine ⟨?_, hparts _ _ fun q hq => by have := part_smaller (role := q.1) (c := q.2) hq; omega⟩
    intro h
    obtain ⟨i, r, x, hi, h | h⟩ := mem_drawParts.1 h
    · have hs := part_smaller (List.mem_of_getElem? hi)
      obtain ⟨τ, h1, -⟩ := about_drawn (n := n) (by omega) h
      have := congrArg List.length h1
      simp [DCmd.about] at this
    · cases h

/-! ### Diagrams -/

/-- **C75.** The nodes of a diagram: the statement, one for every part of the rule outside of mapping literals, labelled with what
the part is, and the comment. -/
theorem diagram_nodes (e : Expr) (comment : Option String) (π : List Nat) (lab : DLabel) :
    .node π lab ∈ drawRule e comment ↔
      (π = [] ∧ lab = .plain "Statement") ∨ (∃ τ d, π = 0 :: τ ∧ ShownAt e τ d ∧ lab = d.label) ∨
        ∃ text, comment = some text ∧ π = [1] ∧ lab = .comment text := by
  have h := node_drawn (sizeOf e + 1) e (by omega) [0] π lab
  unfold drawRule
  cases comment with
  | none => simp [h]
  | some t => simp [h, or_assoc]

/-- **C75.** The edges: from the statement to the expression, and from every such part to its parts, labelled with their
roles. -/
theorem diagram_edges (e : Expr) (comment : Option String) (π π' : List Nat) (role : String) :
    .edge π π' role ∈ drawRule e comment ↔
      (π = [] ∧ π' = [0] ∧ role = "") ∨
        ∃ τ d i c, π = 0 :: τ ∧ ShownAt e τ d ∧ d.shownParts[i]? = some (role, c) ∧ π' = π ++ [i] := by
  have h := edge_drawn (sizeOf e + 1) e (by omega) [0] π π' role
  unfold drawRule
  cases comment with
  | none =>
    simp only [List.mem_append, List.mem_singleton, reduceCtorEq, false_or, h, DCmd.edge.injEq, List.not_mem_nil, or_false]
    exact or_comm
  | some t =>
    simp only [List.mem_append, List.mem_singleton, reduceCtorEq, false_or, h, DCmd.edge.injEq, or_false]
    exact or_comm

theorem shownAt_unique {e d d' : Expr} {π : List Nat} (h : ShownAt e π d) (h' : ShownAt e π d') : d = d' := by
  induction h with
  | root => cases h'; rfl
  | step hi _ ih =>
    cases h' with
    | step hi' h'' =>
      rw [hi] at hi'
      cases hi'
      exact ih h''

theorem shownAt_snoc {e d c : Expr} {π : List Nat} {i : Nat} {role : String} (h : ShownAt e π d)
    (hi : d.shownParts[i]? = some (role, c)) : ShownAt e (π ++ [i]) c := by
  induction h with
  | root => exact .step hi (.root _)
  | step hj _ ih => exact .step hj (ih hi)

theorem shownAt_last {e c : Expr} : ∀ {π : List Nat}, ShownAt e π c → π = [] ∨
    ∃ τ i d role, π = τ ++ [i] ∧ ShownAt e τ d ∧ d.shownParts[i]? = some (role, c) := by
  intro π h
  induction h with
  | root => exact .inl rfl
  | @step e x d role i π hi h ih =>
    right
    rcases ih with rfl | ⟨τ, j, d', r, rfl, h1, h2⟩
    · cases h
      exact ⟨[], i, e, role, rfl, .root e, hi⟩
    · exact ⟨i :: τ, j, d', r, rfl, .step hi h1, h2⟩

/-- **C75.** Nothing is drawn twice. -/
theorem diagram_once (e : Expr) (comment : Option String) :
    (drawRule e comment).Nodup ∧
      ∀ π lab lab', .node π lab ∈ drawRule e comment → .node π lab' ∈ drawRule e comment → lab = lab' := by
  constructor
  · have hn := draw_nodup (sizeOf e + 1) e (by omega) [0]
    have ha : ∀ c ∈ draw [0] e, ∃ τ, c.about = 0 :: τ ∧ ∀ s t r, c = .edge s t r → s ≠ [] := by
      intro c hc
      obtain ⟨τ, h, -⟩ := about_drawn (n := sizeOf e + 1) (by omega) hc
      refine ⟨τ, h, ?_⟩
      rintro s t r rfl rfl
      obtain ⟨τ, d, i, c, h1, -⟩ := (edge_drawn _ e (Nat.lt_succ_self _) _ _ _ _).1 hc
      simp at h1
    have h1 : ([.node [] (.plain "Statement")] ++ draw [0] e ++ [.edge [] [0] ""] : List DCmd).Nodup := by
      rw [List.nodup_append, List.nodup_append]
      refine ⟨⟨by simp, hn, ?_⟩, by simp, ?_⟩
      · rintro a ha' b hb rfl
        simp only [List.mem_singleton] at ha'
        subst ha'
        obtain ⟨τ, h, -⟩ := ha _ hb
        simp [DCmd.about] at h
      · rintro a ha' b hb rfl
        simp only [List.mem_singleton] at hb
        subst hb
        rcases List.mem_append.1 ha' with h | h
        · simp at h
        · exact (ha _ h).choose_spec.2 _ _ _ rfl rfl
    unfold drawRule
    cases comment with
    | none => simpa using h1
    | some t =>
      rw [List.nodup_append]
      refine ⟨h1, by simp, ?_⟩
      rintro a ha' b hb rfl
      simp only [List.mem_singleton] at hb
      subst hb
      simp only [List.mem_append, List.mem_singleton, DCmd.node.injEq, reduceCtorEq, or_false] at ha'
      rcases ha' with h | h
      · simp at h
      · obtain ⟨τ, h, -⟩ := ha _ h
        simp [DCmd.about] at h
  · intro π lab lab' h h'
    rw [diagram_nodes] at h h'
    rcases h with ⟨rfl, rfl⟩ | ⟨τ, d, rfl, hd, rfl⟩ | ⟨t, rfl, rfl, rfl⟩ <;>
      rcases h' with ⟨h1, h2⟩ | ⟨τ', d', h1, hd', h2⟩ | ⟨t', h0, h1, h2⟩ <;> simp at h1
    · exact h2.symm
    · subst h1
      rw [h2, shownAt_unique hd hd']
    · cases h0
      exact h2.symm

/-- **C75.** The diagram is a tree with the statement as its root, and the comment beside it: every other node has exactly one
edge to it, from a node of the diagram; and edges lead to nodes. -/
theorem diagram_tree (e : Expr) (comment : Option String) :
    (∀ π lab, .node π lab ∈ drawRule e comment → π ≠ [] → (∀ t, lab ≠ .comment t) →
      ∃! q : List Nat × String, .edge q.1 π q.2 ∈ drawRule e comment) ∧
    (∀ π role, .edge π [] role ∉ drawRule e comment) ∧
    ∀ π π' role, .edge π π' role ∈ drawRule e comment →
      (∃ lab, .node π lab ∈ drawRule e comment) ∧ (∃ lab, .node π' lab ∈ drawRule e comment) ∧ π'.length = π.length + 1 := by
  refine ⟨?_, ?_, ?_⟩
  · intro π lab h hne hc
    rw [diagram_nodes] at h
    rcases h with ⟨rfl, -⟩ | ⟨τ, d, rfl, hd, rfl⟩ | ⟨t, -, -, rfl⟩
    · exact (hne rfl).elim
    · rcases shownAt_last hd with rfl | ⟨τ', i, d', role, rfl, hd', hi⟩
      · refine ⟨([], ""), (diagram_edges ..).2 (.inl ⟨rfl, rfl, rfl⟩), ?_⟩
        rintro ⟨s, r⟩ h
        rcases (diagram_edges ..).1 h with ⟨h1, h2, h3⟩ | ⟨τ, d', i, c, h1, h2, h3, h4⟩
        · simp only at h1 h3; rw [h1, h3]
        · simp only at h1 h4
          rw [h1] at h4
          simp at h4
      · refine ⟨(0 :: τ', role), (diagram_edges ..).2 (.inr ⟨τ', d', i, d, rfl, hd', hi, by simp⟩), ?_⟩
        rintro ⟨s, r⟩ h
        rcases (diagram_edges ..).1 h with ⟨h1, h2, h3⟩ | ⟨τ, d'', j, c, h1, h2, h3, h4⟩
        · simp at h2
        · simp only at h1 h4
          subst h1
          have h4' : τ' ++ [i] = τ ++ [j] := by simpa using h4
          obtain ⟨rfl, hij⟩ := List.append_inj' h4' rfl
          cases hij
          cases shownAt_unique hd' h2
          simp only at h3
          rw [hi] at h3
          cases h3
          rfl
    · exact (hc t rfl).elim
  · intro π role h
    rcases (diagram_edges ..).1 h with ⟨-, h2, -⟩ | ⟨τ, d, i, c, -, -, -, h4⟩
    · cases h2
    · simp at h4
  · intro π π' role h
    rcases (diagram_edges ..).1 h with ⟨rfl, rfl, rfl⟩ | ⟨τ, d, i, c, rfl, hd, hi, rfl⟩
    · exact ⟨⟨_, (diagram_nodes ..).2 (.inl ⟨rfl, rfl⟩)⟩, ⟨_, (diagram_nodes ..).2 (.inr (.inl ⟨[], e, rfl, .root e, rfl⟩))⟩, rfl⟩
    · exact ⟨⟨_, (diagram_nodes ..).2 (.inr (.inl ⟨τ, d, rfl, hd, rfl⟩))⟩,
        ⟨_, (diagram_nodes ..).2 (.inr (.inl ⟨τ ++ [i], c, by simp, shownAt_snoc hd hi, rfl⟩))⟩, by simp⟩

/-! ### What a diagram shows -/

mutual
/-- **Specification.** What a diagram does not show is taken away from a rule: whether accesses are safe, whether a name is a
builtin, the function of a function literal, declared types, and what is in mapping literals. -/
def Expr.shown : Expr → Expr
  | .lit v rt => if rt.isCompound then .lit .undef .undefined else .lit v .undefined
  | .array xs => .array (Expr.shownList xs)
  | .set xs => .set (Expr.shownList xs)
  | .mapping _ => .mapping []
  | .bin op l r => .bin op l.shown r.shown
  | .comp r v it c => .comp r.shown v it.shown (match c with
      | .lit (.bool true) _ => .lit (.bool true) .undefined
      | c => c.shown)
  | .contains c m => .contains c.shown m.shown
  | .getAttr o n _ => .getAttr o.shown n false
  | .getItem c i _ => .getItem c.shown i.shown false
  | .getSlice c a b _ => .getSlice c.shown a.shown b.shown false
  | .sym n _ _ => .sym n .undefined false
  | .call f args => .call f.shown (Expr.shownList args)
  | .tern c t f => .tern c.shown t.shown f.shown
  | .not e => .not e.shown
  | .neg e => .neg e.shown
def Expr.shownList : List Expr → List Expr
  | [] => []
  | x :: xs => x.shown :: Expr.shownList xs
end

theorem shownList_eq (xs : List Expr) : Expr.shownList xs = xs.map Expr.shown := by
  induction xs with
  | nil => rfl
  | cons x xs ih => simp [Expr.shownList, ih]

theorem numbered_get (n i : Nat) (xs : List Expr) :
    (numbered n xs)[i]? = (xs[i]?).map fun x => ("argument #" ++ toString (n + i), x) := by
  induction xs generalizing n i with
  | nil => simp [numbered]
  | cons x xs ih =>
    cases i with
    | zero => simp [numbered]
    | succ i => simp [numbered, ih, show n + 1 + i = n + (i + 1) by omega]

/-- the labels at the positions of two rules are the same -/
def SameLabels (e e' : Expr) : Prop :=
  ∀ π, (∀ d, ShownAt e π d → ∃ d', ShownAt e' π d' ∧ d'.label = d.label) ∧
    ∀ d', ShownAt e' π d' → ∃ d, ShownAt e π d ∧ d.label = d'.label

theorem SameLabels.root {e e' : Expr} (h : SameLabels e e') : e'.label = e.label := by
  obtain ⟨d', h1, h2⟩ := (h []).1 e (.root e)
  cases h1
  exact h2

theorem SameLabels.part {e e' c : Expr} {i : Nat} {role : String} (h : SameLabels e e')
    (hi : e.shownParts[i]? = some (role, c)) : ∃ role' c', e'.shownParts[i]? = some (role', c') ∧ SameLabels c c' := by
  obtain ⟨d', h1, h2⟩ := (h [i]).1 c (.step hi (.root c))
  cases h1 with
  | step hi' h1 =>
    cases h1
    refine ⟨_, _, hi', fun π => ⟨?_, ?_⟩⟩
    · intro d hd
      obtain ⟨d', h3, h4⟩ := (h (i :: π)).1 d (.step hi hd)
      cases h3 with
      | step hj h3 => rw [hi'] at hj; cases hj; exact ⟨d', h3, h4⟩
    · intro d hd
      obtain ⟨d', h3, h4⟩ := (h (i :: π)).2 d (.step hi' hd)
      cases h3 with
      | step hj h3 => rw [hi] at hj; cases hj; exact ⟨d', h3, h4⟩

theorem SameLabels.symm {e e' : Expr} (h : SameLabels e e') : SameLabels e' e := fun π => ⟨(h π).2, (h π).1⟩

/-- the operators -/
def allOps : List BinOp :=
  [.add, .sub, .arith .add, .arith .sub, .arith .mul, .arith .tdiv, .arith .fdiv, .arith .mod, .arith .pow,
    .bit .and, .bit .or, .bit .xor, .bit .lsh, .bit .rsh, .shift .and, .shift .or, .shift .xor, .shift .lsh, .shift .rsh,
    .and, .or, .eq, .ne, .cmp .lt, .cmp .le, .cmp .gt, .cmp .ge, .cmp .ne,
    .fuzzy false false, .fuzzy false true, .fuzzy true false, .fuzzy true true]

/-- the operator with a label -/
def opOf (cls ty : String) : BinOp := ((allOps.find? fun op => op.cls == cls && op.typeName == ty).getD .add)

theorem opOf_label (op : BinOp) : opOf op.cls op.typeName = op := by
  have h : ∀ op ∈ allOps, opOf op.cls op.typeName = op := by decide +kernel
  refine h op ?_
  cases op with
  | arith o => cases o <;> simp [allOps]
  | bit o => cases o <;> simp [allOps]
  | shift o => cases o <;> simp [allOps]
  | cmp o => cases o <;> simp [allOps]
  | fuzzy a b => cases a <;> cases b <;> simp [allOps]
  | _ => simp [allOps]

/-- a node from its label and its parts -/
def assemble (lab : DLabel) (xs : List Expr) : Expr :=
  match lab, xs with
  | .plain cls, xs =>
    if cls = "ArrayExpression" then .array xs
    else if cls = "SetExpression" then .set xs
    else if cls = "MappingExpression" then .mapping []
    else if cls = "ContainsExpression" then .contains (xs.getD 0 default) (xs.getD 1 default)
    else if cls = "GetItemExpression" then .getItem (xs.getD 0 default) (xs.getD 1 default) false
    else if cls = "GetSliceExpression" then .getSlice (xs.getD 0 default) (xs.getD 1 default) (xs.getD 2 default) false
    else if cls = "FunctionCallExpression" then .call (xs.headD default) xs.tail
    else if cls = "TernaryExpression" then .tern (xs.getD 0 default) (xs.getD 1 default) (xs.getD 2 default)
    else .lit .undef .undefined
  | .value _ v, _ => .lit v .undefined
  | .type cls ty, xs =>
    if cls = "UnaryExpression" then (if ty = "not" then .not (xs.getD 0 default) else .neg (xs.getD 0 default))
    else .bin (opOf cls ty) (xs.getD 0 default) (xs.getD 1 default)
  | .var _ name, xs => .comp (xs.getD 0 default) name (xs.getD 1 default) (xs.getD 2 (.lit (.bool true) .undefined))
  | .name cls name, xs =>
    if cls = "SymbolExpression" then .sym name .undefined false else .getAttr (xs.getD 0 default) name false
  | .comment _, _ => default

theorem shown_assemble (e : Expr) : e.shown = assemble e.label (e.shownParts.map fun q => q.2.shown) := by
  cases e with
  | lit v rt =>
    simp only [Expr.shown, Expr.label, Expr.shownParts]
    split
    · cases rt <;> simp [assemble, literalClass]
    · rfl
  | array xs => simp [Expr.shown, Expr.label, Expr.shownParts, assemble, shownList_eq]
  | set xs => simp [Expr.shown, Expr.label, Expr.shownParts, assemble, shownList_eq]
  | bin op l r =>
    have h : op.cls ≠ "UnaryExpression" := by cases op <;> simp [BinOp.cls]
    simp [Expr.shown, Expr.label, Expr.shownParts, assemble, h, opOf_label]
  | comp r v it c =>
    simp only [Expr.label, Expr.shownParts]
    rw [Expr.shown.eq_def]
    dsimp only
    split
    · simp [assemble]
    · simp [assemble]
  | call f args =>
    have h : ∀ n, (numbered n args).map (fun q => q.2.shown) = args.map Expr.shown := by
      induction args with
      | nil => simp [numbered]
      | cons x xs ih => simp [numbered, ih]
    simp [Expr.shown, Expr.label, Expr.shownParts, assemble, shownList_eq, h]
  | _ => simp [Expr.shown, Expr.label, Expr.shownParts, assemble]

theorem sameLabels_shown : ∀ (n : Nat) (e e' : Expr), sizeOf e < n → SameLabels e e' → e.shown = e'.shown
  | 0, _, _, h, _ => by omega
  | n + 1, e, e', hn, h => by
    rw [shown_assemble e, shown_assemble e', h.root]
    congr 1
    refine List.ext_getElem? fun i => ?_
    simp only [List.getElem?_map]
    cases hi : e.shownParts[i]? with
    | some q =>
      obtain ⟨role', c', hi', hc⟩ := h.part (role := q.1) (c := q.2) hi
      have hs := part_smaller (role := q.1) (c := q.2) (List.mem_of_getElem? hi)
      simp [hi', sameLabels_shown n q.2 c' (by omega) hc]
    | none =>
      cases hi' : e'.shownParts[i]? with
      | none => rfl
      | some q =>
        obtain ⟨role, c, hj, -⟩ := h.symm.part (role := q.1) (c := q.2) hi'
        rw [hi] at hj
        cases hj

/-- **C75.** Rules with the same diagram are the same rule, but for what a diagram does not show; and their comments are the
same. -/
theorem diagram_faithful (e e' : Expr) (comment comment' : Option String)
    (h : ∀ π lab, .node π lab ∈ drawRule e comment ↔ .node π lab ∈ drawRule e' comment') :
    e.shown = e'.shown ∧ comment = comment' := by
  constructor
  · refine sameLabels_shown (sizeOf e + 1) e e' (by omega) fun π => ⟨fun d hd => ?_, fun d hd => ?_⟩
    · have := (h (0 :: π) d.label).1 ((diagram_nodes ..).2 (.inr (.inl ⟨π, d, rfl, hd, rfl⟩)))
      rcases (diagram_nodes ..).1 this with ⟨h1, -⟩ | ⟨τ, d', h1, h2, h3⟩ | ⟨t, -, h1, -⟩
      · cases h1
      · cases h1; exact ⟨d', h2, h3.symm⟩
      · cases h1
    · have := (h (0 :: π) d.label).2 ((diagram_nodes ..).2 (.inr (.inl ⟨π, d, rfl, hd, rfl⟩)))
      rcases (diagram_nodes ..).1 this with ⟨h1, -⟩ | ⟨τ, d', h1, h2, h3⟩ | ⟨t, -, h1, -⟩
      · cases h1
      · cases h1; exact ⟨d', h2, h3.symm⟩
      · cases h1
  · have hc : ∀ (e : Expr) (c : Option String) (t : String), .node [1] (.comment t) ∈ drawRule e c ↔ c = some t := by
      intro e c t
      rw [diagram_nodes]
      constructor
      · rintro (⟨h1, -⟩ | ⟨τ, d, h1, -⟩ | ⟨t', h1, -, h2⟩)
        · cases h1
        · cases h1
        · cases h2; exact h1
      · rintro rfl
        exact .inr (.inr ⟨t, rfl, rfl, rfl⟩)
    have hiff : ∀ t, comment = some t ↔ comment' = some t := fun t => by
      rw [← hc e comment t, ← hc e' comment' t]; exact h _ _
    cases hq : comment with
    | some t => exact ((hiff t).1 hq).symm
    | none =>
      cases hq' : comment' with
      | none => rfl
      | some t => rw [(hiff t).2 hq'] at hq; cases hq

/-! ### Examples -/

/-- the diagram of `x in [y, 1] # c` -/
example : drawRule (.contains (.array [.sym "y" .undefined false, .lit (.dec (.ofInt 1)) .float]) (.sym "x" .undefined false))
    (some "c") =
    [.node [] (.plain "Statement"), .node [0] (.plain "ContainsExpression"), .node [0, 0] (.plain "ArrayExpression"),
      .node [0, 0, 0] (.name "SymbolExpression" "y"), .edge [0, 0] [0, 0, 0] "",
      .node [0, 0, 1] (.value "FloatExpression" (.dec (.ofInt 1))), .edge [0, 0] [0, 0, 1] "",
      .node [0, 1] (.name "SymbolExpression" "x"), .edge [0] [0, 0] "container", .edge [0] [0, 1] "member",
      .edge [] [0] "", .node [1] (.comment "c")] := by
  decide +kernel

/-- what is not shown: `{"a": x}` and `{}`, `x.a` and `x&.a`, and `$e` and `e` have the same diagrams -/
example : drawRule (.mapping [(.lit (.str "a") .string, .sym "x" .undefined false)]) none = drawRule (.mapping []) none ∧
    drawRule (.getAttr (.sym "x" .undefined false) "a" false) none =
      drawRule (.getAttr (.sym "x" .undefined false) "a" true) none ∧
    drawRule (.sym "e" .float true) none = drawRule (.sym "e" .undefined false) none := by
  decide +kernel

end RE
