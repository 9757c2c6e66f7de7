import Verif.Props.ParseAll

/-!
# Writing a tree with the parentheses the table requires (C40)

`Syn.parens` puts parentheses where the precedence table requires them and nowhere else.  Every tree
written so parses back to that tree.
-/

set_option linter.unusedSimpArgs false

namespace RE

/-- parentheses, if needed -/
def Syn.wrapUnless (b : Bool) (e : Syn) : Syn := if b then e else .paren e

mutual
/-- Put the parentheses the table requires. -/
def Syn.parens : Syn → Syn
  | .paren e => .paren e.parens
  | .array amp xs comma => .array amp (Syn.parensList xs) comma
  | .set xs comma => .set (Syn.parensList xs) comma
  | .mapping kvs comma => .mapping (Syn.parensPairs kvs) comma
  | .comp amp r v it => .comp amp r.parens v it.parens
  | .compIf amp r v it c => .compIf amp r.parens v it.parens c.parens
  | .attr o n safe => .attr (o.parens.wrapUnless o.parens.isObj) n safe
  | .item o i safe => .item (o.parens.wrapUnless o.parens.isObj) i.parens safe
  | .slice o safe => .slice (o.parens.wrapUnless o.parens.isObj) safe
  | .sliceTo o b safe => .sliceTo (o.parens.wrapUnless o.parens.isObj) b.parens safe
  | .sliceFrom o a safe => .sliceFrom (o.parens.wrapUnless o.parens.isObj) a.parens safe
  | .sliceBoth o a b safe =>
    .sliceBoth (o.parens.wrapUnless o.parens.isObj) a.parens b.parens safe
  | .call f args => .call (f.parens.wrapUnless f.parens.isAtom) (Syn.parensList args)
  | .bin op l r =>
    .bin op (l.parens.wrapUnless (l.parens.rightEdge.all (before · (level op))))
      (r.parens.wrapUnless (r.parens.leftEdge.all (after · (level op))))
  | .isIn l r =>
    .isIn (l.parens.wrapUnless (l.parens.rightEdge.all (before · (level .IN))))
      (r.parens.wrapUnless (r.parens.leftEdge.all (after · (level .IN))))
  | .notIn l r =>
    .notIn (l.parens.wrapUnless (l.parens.rightEdge.all (before · (level .NOT))))
      (r.parens.wrapUnless (r.parens.leftEdge.all (after · (level .IN))))
  | .tern c t f =>
    .tern (c.parens.wrapUnless (c.parens.rightEdge.all (before · (level .QMARK)))) t.parens
      (f.parens.wrapUnless (f.parens.leftEdge.all (after · (level .QMARK))))
  | .not e => .not (e.parens.wrapUnless (e.parens.leftEdge.all (after · (level .NOT))))
  | .neg e => .neg (e.parens.wrapUnless (e.parens.leftEdge.all (after · 13)))
  | e => e
/-- in all members -/
def Syn.parensList : List Syn → List Syn
  | [] => []
  | x :: xs => x.parens :: Syn.parensList xs
/-- in all keys and values -/
def Syn.parensPairs : List (Syn × Syn) → List (Syn × Syn)
  | [] => []
  | (k, v) :: rest => (k.parens, v.parens) :: Syn.parensPairs rest
end

mutual
/-- A tree that can be written at all: literals decode, names, sets and lists with a trailing comma
are not empty and binary operators are binary operators.  Nothing is said about parentheses. -/
def Syn.wf (codec : LitCodec) : Syn → Bool
  | .bool _ | .num _ | .nan | .inf | .null | .datetime _ | .timedelta _ => true
  | .sym n => !n.isEmpty
  | .str t => (codec.str t.tail.dropLast).isSome
  | .bytes t => (codec.bytes t).isSome
  | .paren e => e.wf codec
  | .array _ xs comma => Syn.wfList codec xs && (!comma || !xs.isEmpty)
  | .set xs _ => Syn.wfList codec xs && !xs.isEmpty
  | .mapping kvs comma => Syn.wfPairs codec kvs && (!comma || !kvs.isEmpty)
  | .comp _ r _ it => r.wf codec && it.wf codec
  | .compIf _ r _ it c => r.wf codec && it.wf codec && c.wf codec
  | .attr o _ _ => o.wf codec
  | .item o i _ => o.wf codec && i.wf codec
  | .slice o _ => o.wf codec
  | .sliceTo o b _ => o.wf codec && b.wf codec
  | .sliceFrom o a _ => o.wf codec && a.wf codec
  | .sliceBoth o a b _ => o.wf codec && a.wf codec && b.wf codec
  | .call f args => f.wf codec && Syn.wfList codec args
  | .bin op l r => decide (op ∈ binaryKinds) && l.wf codec && r.wf codec
  | .isIn l r => l.wf codec && r.wf codec
  | .notIn l r => l.wf codec && r.wf codec
  | .tern c t f => c.wf codec && t.wf codec && f.wf codec
  | .not e => e.wf codec
  | .neg e => e.wf codec
/-- all members can -/
def Syn.wfList (codec : LitCodec) : List Syn → Bool
  | [] => true
  | x :: xs => x.wf codec && Syn.wfList codec xs
/-- all keys and values can -/
def Syn.wfPairs (codec : LitCodec) : List (Syn × Syn) → Bool
  | [] => true
  | (k, v) :: rest => k.wf codec && v.wf codec && Syn.wfPairs codec rest
end

theorem wrap_raw (codec : LitCodec) (b : Bool) (e : Syn) : (e.wrapUnless b).raw codec = e.raw codec := by
  cases b <;> simp [Syn.wrapUnless, Syn.raw]

theorem wrap_ok (codec : LitCodec) (b : Bool) (e : Syn) : (e.wrapUnless b).ok codec = e.ok codec := by
  cases b <;> simp [Syn.wrapUnless, Syn.ok]

theorem wrap_left (p : Nat → Bool) (e : Syn) :
    (e.wrapUnless (e.leftEdge.all p)).leftEdge.all p = true := by
  cases h : e.leftEdge.all p <;> simp [Syn.wrapUnless, h, Syn.leftEdge]

theorem wrap_right (p : Nat → Bool) (e : Syn) :
    (e.wrapUnless (e.rightEdge.all p)).rightEdge.all p = true := by
  cases h : e.rightEdge.all p <;> simp [Syn.wrapUnless, h, Syn.rightEdge]

theorem wrap_obj (e : Syn) : (e.wrapUnless e.isObj).isObj = true := by
  cases h : e.isObj
  · rfl
  · exact h

theorem wrap_atom (e : Syn) : (e.wrapUnless e.isAtom).isAtom = true := by
  cases h : e.isAtom
  · rfl
  · exact h

theorem parensList_nil_iff (xs : List Syn) : (Syn.parensList xs).isEmpty = xs.isEmpty := by
  cases xs <;> simp [Syn.parensList]

theorem parensPairs_nil_iff (xs : List (Syn × Syn)) : (Syn.parensPairs xs).isEmpty = xs.isEmpty := by
  cases xs with
  | nil => rfl
  | cons x xs => obtain ⟨k, v⟩ := x; simp [Syn.parensPairs]

mutual
/-- Parentheses do not change the tree. -/
theorem parens_raw (codec : LitCodec) : ∀ s : Syn, s.parens.raw codec = s.raw codec
  | .bool _ | .num _ | .nan | .inf | .null | .datetime _ | .timedelta _ | .sym _ | .str _
  | .bytes _ => by simp [Syn.parens]
  | .paren e => by simp [Syn.parens, Syn.raw, parens_raw codec e]
  | .array _ xs _ => by simp [Syn.parens, Syn.raw, parensList_raw codec xs]
  | .set xs _ => by simp [Syn.parens, Syn.raw, parensList_raw codec xs]
  | .mapping kvs _ => by simp [Syn.parens, Syn.raw, parensPairs_raw codec kvs]
  | .comp _ r _ it => by simp [Syn.parens, Syn.raw, parens_raw codec r, parens_raw codec it]
  | .compIf _ r _ it c => by
    simp [Syn.parens, Syn.raw, parens_raw codec r, parens_raw codec it, parens_raw codec c]
  | .attr o _ _ => by simp [Syn.parens, Syn.raw, wrap_raw, parens_raw codec o]
  | .item o i _ => by simp [Syn.parens, Syn.raw, wrap_raw, parens_raw codec o, parens_raw codec i]
  | .slice o _ => by simp [Syn.parens, Syn.raw, wrap_raw, parens_raw codec o]
  | .sliceTo o b _ => by simp [Syn.parens, Syn.raw, wrap_raw, parens_raw codec o, parens_raw codec b]
  | .sliceFrom o a _ => by
    simp [Syn.parens, Syn.raw, wrap_raw, parens_raw codec o, parens_raw codec a]
  | .sliceBoth o a b _ => by
    simp [Syn.parens, Syn.raw, wrap_raw, parens_raw codec o, parens_raw codec a, parens_raw codec b]
  | .call f args => by
    simp [Syn.parens, Syn.raw, wrap_raw, parens_raw codec f, parensList_raw codec args]
  | .bin _ l r => by simp [Syn.parens, Syn.raw, wrap_raw, parens_raw codec l, parens_raw codec r]
  | .isIn l r => by simp [Syn.parens, Syn.raw, wrap_raw, parens_raw codec l, parens_raw codec r]
  | .notIn l r => by simp [Syn.parens, Syn.raw, wrap_raw, parens_raw codec l, parens_raw codec r]
  | .tern c t f => by
    simp [Syn.parens, Syn.raw, wrap_raw, parens_raw codec c, parens_raw codec t, parens_raw codec f]
  | .not e => by simp [Syn.parens, Syn.raw, wrap_raw, parens_raw codec e]
  | .neg e => by simp [Syn.parens, Syn.raw, wrap_raw, parens_raw codec e]
theorem parensList_raw (codec : LitCodec) : ∀ xs : List Syn,
    Syn.raws codec (Syn.parensList xs) = Syn.raws codec xs
  | [] => rfl
  | x :: xs => by simp [Syn.parensList, Syn.raws, parens_raw codec x, parensList_raw codec xs]
theorem parensPairs_raw (codec : LitCodec) : ∀ xs : List (Syn × Syn),
    Syn.rawPairs codec (Syn.parensPairs xs) = Syn.rawPairs codec xs
  | [] => rfl
  | (k, v) :: xs => by
    simp [Syn.parensPairs, Syn.rawPairs, parens_raw codec k, parens_raw codec v,
      parensPairs_raw codec xs]
end

mutual
/-- The parentheses put are all that are required. -/
theorem parens_ok (codec : LitCodec) : ∀ s : Syn, s.wf codec = true → s.parens.ok codec = true
  | .bool _, _ | .num _, _ | .nan, _ | .inf, _ | .null, _ | .datetime _, _ | .timedelta _, _ => rfl
  | .sym _, h | .str _, h | .bytes _, h => by simpa [Syn.parens, Syn.ok, Syn.wf] using h
  | .paren e, h => by
    simp only [Syn.wf] at h
    simp [Syn.parens, Syn.ok, parens_ok codec e h]
  | .array _ xs _, h => by
    simp only [Syn.wf, Bool.and_eq_true] at h
    simp only [Syn.parens, Syn.ok, Bool.and_eq_true, parensList_nil_iff]
    exact ⟨parensList_ok codec xs h.1, h.2⟩
  | .set xs _, h => by
    simp only [Syn.wf, Bool.and_eq_true] at h
    simp only [Syn.parens, Syn.ok, Bool.and_eq_true, parensList_nil_iff]
    exact ⟨parensList_ok codec xs h.1, h.2⟩
  | .mapping kvs _, h => by
    simp only [Syn.wf, Bool.and_eq_true] at h
    simp only [Syn.parens, Syn.ok, Bool.and_eq_true, parensPairs_nil_iff]
    exact ⟨parensPairs_ok codec kvs h.1, h.2⟩
  | .comp _ r _ it, h => by
    simp only [Syn.wf, Bool.and_eq_true] at h
    simp [Syn.parens, Syn.ok, parens_ok codec r h.1, parens_ok codec it h.2]
  | .compIf _ r _ it c, h => by
    simp only [Syn.wf, Bool.and_eq_true] at h
    simp [Syn.parens, Syn.ok, parens_ok codec r h.1.1, parens_ok codec it h.1.2, parens_ok codec c h.2]
  | .attr o _ _, h => by
    simp only [Syn.wf, Bool.and_eq_true] at h
    simp [Syn.parens, Syn.ok, wrap_ok, wrap_obj, parens_ok codec o h]
  | .item o i _, h => by
    simp only [Syn.wf, Bool.and_eq_true] at h
    simp [Syn.parens, Syn.ok, wrap_ok, wrap_obj, parens_ok codec o h.1, parens_ok codec i h.2]
  | .slice o _, h => by
    simp only [Syn.wf, Bool.and_eq_true] at h
    simp [Syn.parens, Syn.ok, wrap_ok, wrap_obj, parens_ok codec o h]
  | .sliceTo o b _, h => by
    simp only [Syn.wf, Bool.and_eq_true] at h
    simp [Syn.parens, Syn.ok, wrap_ok, wrap_obj, parens_ok codec o h.1, parens_ok codec b h.2]
  | .sliceFrom o a _, h => by
    simp only [Syn.wf, Bool.and_eq_true] at h
    simp [Syn.parens, Syn.ok, wrap_ok, wrap_obj, parens_ok codec o h.1, parens_ok codec a h.2]
  | .sliceBoth o a b _, h => by
    simp only [Syn.wf, Bool.and_eq_true] at h
    simp [Syn.parens, Syn.ok, wrap_ok, wrap_obj, parens_ok codec o h.1.1, parens_ok codec a h.1.2,
      parens_ok codec b h.2]
  | .call f args, h => by
    simp only [Syn.wf, Bool.and_eq_true] at h
    simp [Syn.parens, Syn.ok, wrap_ok, wrap_atom, parens_ok codec f h.1, parensList_ok codec args h.2]
  | .bin op l r, h => by
    simp only [Syn.wf, Bool.and_eq_true, decide_eq_true_eq] at h
    simp only [Syn.parens, Syn.ok, wrap_ok, parens_ok codec l h.1.2, parens_ok codec r h.2, wrap_left,
      wrap_right, h.1.1, decide_true, Bool.and_self]
  | .isIn l r, h => by
    simp only [Syn.wf, Bool.and_eq_true, decide_eq_true_eq] at h
    simp only [Syn.parens, Syn.ok, wrap_ok, parens_ok codec l h.1, parens_ok codec r h.2, wrap_left,
      wrap_right, Bool.and_self]
  | .notIn l r, h => by
    simp only [Syn.wf, Bool.and_eq_true, decide_eq_true_eq] at h
    simp only [Syn.parens, Syn.ok, wrap_ok, parens_ok codec l h.1, parens_ok codec r h.2, wrap_left,
      wrap_right, Bool.and_self]
  | .tern c t f, h => by
    simp only [Syn.wf, Bool.and_eq_true, decide_eq_true_eq] at h
    simp only [Syn.parens, Syn.ok, wrap_ok, parens_ok codec c h.1.1, parens_ok codec t h.1.2,
      parens_ok codec f h.2, wrap_left, wrap_right, Bool.and_self]
  | .not e, h => by
    simp only [Syn.wf] at h
    simp only [Syn.parens, Syn.ok, wrap_ok, parens_ok codec e h, wrap_left, Bool.and_self]
  | .neg e, h => by
    simp only [Syn.wf] at h
    simp only [Syn.parens, Syn.ok, wrap_ok, parens_ok codec e h, wrap_left, Bool.and_self]
theorem parensList_ok (codec : LitCodec) : ∀ xs : List Syn, Syn.wfList codec xs = true →
    Syn.okList codec (Syn.parensList xs) = true
  | [], _ => rfl
  | x :: xs, h => by
    simp only [Syn.wfList, Bool.and_eq_true] at h
    simp [Syn.parensList, Syn.okList, parens_ok codec x h.1, parensList_ok codec xs h.2]
theorem parensPairs_ok (codec : LitCodec) : ∀ xs : List (Syn × Syn), Syn.wfPairs codec xs = true →
    Syn.okPairs codec (Syn.parensPairs xs) = true
  | [], _ => rfl
  | (k, v) :: xs, h => by
    simp only [Syn.wfPairs, Bool.and_eq_true] at h
    simp [Syn.parensPairs, Syn.okPairs, parens_ok codec k h.1.1, parens_ok codec v h.1.2,
      parensPairs_ok codec xs h.2]
end

mutual
/-- No parentheses are put where none are required. -/
theorem parens_id (codec : LitCodec) : ∀ s : Syn, s.ok codec = true → s.parens = s
  | .bool _, _ | .num _, _ | .nan, _ | .inf, _ | .null, _ | .datetime _, _ | .timedelta _, _
  | .sym _, _ | .str _, _ | .bytes _, _ => by simp [Syn.parens]
  | .paren e, h => by
    simp only [Syn.ok] at h
    simp [Syn.parens, parens_id codec e h]
  | .array _ xs _, h => by
    simp only [Syn.ok, Bool.and_eq_true] at h
    simp [Syn.parens, parensList_id codec xs h.1]
  | .set xs _, h => by
    simp only [Syn.ok, Bool.and_eq_true] at h
    simp [Syn.parens, parensList_id codec xs h.1]
  | .mapping kvs _, h => by
    simp only [Syn.ok, Bool.and_eq_true] at h
    simp [Syn.parens, parensPairs_id codec kvs h.1]
  | .comp _ r _ it, h => by
    simp only [Syn.ok, Bool.and_eq_true] at h
    simp [Syn.parens, parens_id codec r h.1, parens_id codec it h.2]
  | .compIf _ r _ it c, h => by
    simp only [Syn.ok, Bool.and_eq_true] at h
    simp [Syn.parens, parens_id codec r h.1.1, parens_id codec it h.1.2, parens_id codec c h.2]
  | .attr o _ _, h => by
    simp only [Syn.ok, Bool.and_eq_true] at h
    simp [Syn.parens, Syn.wrapUnless, parens_id codec o h.1, h.2]
  | .item o i _, h => by
    simp only [Syn.ok, Bool.and_eq_true] at h
    simp [Syn.parens, Syn.wrapUnless, parens_id codec o h.1.1, h.1.2, parens_id codec i h.2]
  | .slice o _, h => by
    simp only [Syn.ok, Bool.and_eq_true] at h
    simp [Syn.parens, Syn.wrapUnless, parens_id codec o h.1, h.2]
  | .sliceTo o b _, h => by
    simp only [Syn.ok, Bool.and_eq_true] at h
    simp [Syn.parens, Syn.wrapUnless, parens_id codec o h.1.1, h.1.2, parens_id codec b h.2]
  | .sliceFrom o a _, h => by
    simp only [Syn.ok, Bool.and_eq_true] at h
    simp [Syn.parens, Syn.wrapUnless, parens_id codec o h.1.1, h.1.2, parens_id codec a h.2]
  | .sliceBoth o a b _, h => by
    simp only [Syn.ok, Bool.and_eq_true] at h
    simp [Syn.parens, Syn.wrapUnless, parens_id codec o h.1.1.1, h.1.1.2, parens_id codec a h.1.2,
      parens_id codec b h.2]
  | .call f args, h => by
    simp only [Syn.ok, Bool.and_eq_true] at h
    simp [Syn.parens, Syn.wrapUnless, parens_id codec f h.1.1, h.1.2, parensList_id codec args h.2]
  | .bin op l r, h => by
    simp only [Syn.ok, Bool.and_eq_true, decide_eq_true_eq] at h
    obtain ⟨⟨⟨⟨_, hl⟩, hr⟩, h1⟩, h2⟩ := h
    simp only [Syn.parens, parens_id codec l hl, parens_id codec r hr, h1, h2, Syn.wrapUnless, if_true]
  | .isIn l r, h => by
    simp only [Syn.ok, Bool.and_eq_true, decide_eq_true_eq] at h
    obtain ⟨⟨⟨hl, hr⟩, h1⟩, h2⟩ := h
    simp only [Syn.parens, parens_id codec l hl, parens_id codec r hr, h1, h2, Syn.wrapUnless, if_true]
  | .notIn l r, h => by
    simp only [Syn.ok, Bool.and_eq_true, decide_eq_true_eq] at h
    obtain ⟨⟨⟨hl, hr⟩, h1⟩, h2⟩ := h
    simp only [Syn.parens, parens_id codec l hl, parens_id codec r hr, h1, h2, Syn.wrapUnless, if_true]
  | .tern c t f, h => by
    simp only [Syn.ok, Bool.and_eq_true, decide_eq_true_eq] at h
    obtain ⟨⟨⟨⟨hc, ht⟩, hf⟩, h1⟩, h2⟩ := h
    simp only [Syn.parens, parens_id codec c hc, parens_id codec t ht, parens_id codec f hf, h1, h2,
      Syn.wrapUnless, if_true]
  | .not e, h => by
    simp only [Syn.ok, Bool.and_eq_true] at h
    simp only [Syn.parens, parens_id codec e h.1, h.2, Syn.wrapUnless, if_true]
  | .neg e, h => by
    simp only [Syn.ok, Bool.and_eq_true] at h
    simp only [Syn.parens, parens_id codec e h.1, h.2, Syn.wrapUnless, if_true]
theorem parensList_id (codec : LitCodec) : ∀ xs : List Syn, Syn.okList codec xs = true →
    Syn.parensList xs = xs
  | [], _ => rfl
  | x :: xs, h => by
    simp only [Syn.okList, Bool.and_eq_true] at h
    simp [Syn.parensList, parens_id codec x h.1, parensList_id codec xs h.2]
theorem parensPairs_id (codec : LitCodec) : ∀ xs : List (Syn × Syn), Syn.okPairs codec xs = true →
    Syn.parensPairs xs = xs
  | [], _ => rfl
  | (k, v) :: xs, h => by
    simp only [Syn.okPairs, Bool.and_eq_true] at h
    simp [Syn.parensPairs, parens_id codec k h.1.1, parens_id codec v h.1.2, parensPairs_id codec xs h.2]
end

/-- **C40.** Any tree, written with parentheses where the precedence table requires them and nowhere
else, parses back to that tree. -/
theorem parse_parens (codec : LitCodec) (s : Syn) (hs : s.wf codec = true) (toks : List Tok)
    (ht : toks.map Tok.lex = s.parens.toks) (line : Nat) :
    parseToks codec toks (.eof line) = ⟨.ok (s.raw codec, none), line⟩ := by
  rw [parse_as_written codec s.parens (parens_ok codec s hs) toks ht line, parens_raw]

end RE
