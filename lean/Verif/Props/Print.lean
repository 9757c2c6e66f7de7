import Verif.Props.ParseText

/-!
# Every tree can be written as a text, and reads back (C40)
-/

set_option linter.unusedSimpArgs false

namespace RE

/-- A name without `$`, not a reserved word. -/
def plainName (n : List Char) : Bool := isName n && nameAhead n && decide (n ∉ reservedWords)

mutual
/-- The names and literals in the tree can be written: names are names and not reserved words, numbers
are numbers, strings are quoted, the text of a date or duration can be quoted; `&[` does not open an
array literal. -/
def Syn.Printable : Syn → Prop
  | .bool _ | .nan | .inf | .null => True
  | .num t => Number t
  | .sym n => isName n = true ∧ n ∉ reservedWords
  | .str t | .bytes t => Quoted t
  | .datetime t | .timedelta t => ∃ q, isQuote q = true ∧ quotedBody q t = true
  | .paren e => e.Printable
  | .array amp xs _ => amp = false ∧ Syn.PrintableList xs
  | .set xs _ => Syn.PrintableList xs
  | .mapping kvs _ => Syn.PrintablePairs kvs
  | .comp amp r v it => amp = false ∧ r.Printable ∧ plainName v = true ∧ it.Printable
  | .compIf amp r v it c => amp = false ∧ r.Printable ∧ plainName v = true ∧ it.Printable ∧ c.Printable
  | .attr o n _ => o.Printable ∧ plainName n = true
  | .item o i _ => o.Printable ∧ i.Printable
  | .slice o _ => o.Printable
  | .sliceTo o b _ => o.Printable ∧ b.Printable
  | .sliceFrom o a _ => o.Printable ∧ a.Printable
  | .sliceBoth o a b _ => o.Printable ∧ a.Printable ∧ b.Printable
  | .call f args => f.Printable ∧ Syn.PrintableList args
  | .bin _ l r | .isIn l r | .notIn l r => l.Printable ∧ r.Printable
  | .tern c t f => c.Printable ∧ t.Printable ∧ f.Printable
  | .not e | .neg e => e.Printable
/-- all members are -/
def Syn.PrintableList : List Syn → Prop
  | [] => True
  | x :: xs => x.Printable ∧ Syn.PrintableList xs
/-- all keys and values are -/
def Syn.PrintablePairs : List (Syn × Syn) → Prop
  | [] => True
  | (k, v) :: rest => k.Printable ∧ v.Printable ∧ Syn.PrintablePairs rest
end

/-! ## Spacing a list of tokens -/

/-- the dot before an attribute -/
def isDot (x : Lexeme) : Bool := decide (x.kind = .ATTR) || decide (x.kind = .ATTR_SAFE)

/-- the last tokens of objects -/
def objectEnds : List Kind := [.SYMBOL, .STRING, .BYTES, .DATETIME, .TIMEDELTA, .NULL, .RPAREN, .RBRACKET, .RBRACE]

/-- `y` may follow `x` -/
def link (x y : Lexeme) : Bool :=
  if attached y then decide (x.kind ∈ objectEnds)
  else if isDot x then decide (y.kind = .SYMBOL) && nameAhead y.text
  else decide (x.kind ≠ .COMMENT)

/-- the tokens may follow each other -/
def chain : List Lexeme → Bool
  | x :: y :: r => link x y && chain (y :: r)
  | _ => true

/-- Tokens that can be written as a part of a text of their own. -/
structure Fine (xs : List Lexeme) : Prop where
  ne : xs ≠ []
  writable : ∀ x ∈ xs, ∃ m, Written x m
  chain : chain xs = true
  first : ∀ x, xs.head? = some x → attached x = false
  last : ∀ x, xs.getLast? = some x → isDot x = false ∧ x.kind ≠ .COMMENT

/-- the last token ends an object -/
def ObjEnd (xs : List Lexeme) : Prop := ∀ x, xs.getLast? = some x → x.kind ∈ objectEnds

theorem chain_append : ∀ {xs ys : List Lexeme}, chain xs = true → chain ys = true →
    (∀ x y, xs.getLast? = some x → ys.head? = some y → link x y = true) → chain (xs ++ ys) = true := by
  intro xs
  induction xs with
  | nil => intro ys _ h _; exact h
  | cons x xs ih =>
    intro ys h1 h2 h3
    cases xs with
    | nil =>
      cases ys with
      | nil => rfl
      | cons y ys =>
        simp only [List.cons_append, List.nil_append, chain, Bool.and_eq_true]
        exact ⟨h3 x y rfl rfl, h2⟩
    | cons z xs =>
      simp only [chain, Bool.and_eq_true] at h1
      simp only [List.cons_append, chain, Bool.and_eq_true]
      refine ⟨h1.1, ?_⟩
      have := ih (ys := ys) h1.2 h2 (fun a b ha hb => h3 a b (by rwa [List.getLast?_cons_cons]) hb)
      simpa using this

theorem Fine.append {xs ys : List Lexeme} (hx : Fine xs) (hy : Fine ys) : Fine (xs ++ ys) where
  ne := by simp [hx.ne]
  writable := fun x h => by
    rcases List.mem_append.1 h with h | h
    · exact hx.writable x h
    · exact hy.writable x h
  chain := chain_append hx.chain hy.chain (fun a b ha hb => by
    obtain ⟨h1, h2⟩ := hx.last a ha
    simp [link, hy.first b hb, h1, h2])
  first := fun x h => by
    obtain ⟨a, as, rfl⟩ := List.exists_cons_of_ne_nil hx.ne
    exact hx.first x h
  last := fun x h => by
    rw [List.getLast?_append] at h
    cases hl : ys.getLast? with
    | none => exact absurd (List.getLast?_eq_none_iff.1 hl) hy.ne
    | some y =>
      rw [hl] at h
      cases h
      exact hy.last _ hl

theorem Fine.single {x : Lexeme} (hw : ∃ m, Written x m) (ha : attached x = false) (hd : isDot x = false)
    (hc : x.kind ≠ .COMMENT) : Fine [x] where
  ne := by simp
  writable := fun y hy => by simp only [List.mem_singleton] at hy; subst hy; exact hw
  chain := rfl
  first := fun y hy => by cases hy; exact ha
  last := fun y hy => by cases hy; exact ⟨hd, hc⟩

theorem Fine.cons {x : Lexeme} {ys : List Lexeme} (hx : Fine [x]) (hy : Fine ys) : Fine (x :: ys) :=
  hx.append hy

/-- kinds that are written one way -/
def plainKinds : List Kind :=
  [.TRUE, .FALSE, .FLOAT_NAN, .FLOAT_INF, .NULL, .LPAREN, .RPAREN, .RBRACKET, .LBRACE, .RBRACE, .COMMA, .FOR, .IN,
   .IF, .COLON, .NOT, .QMARK] ++ binaryKinds

theorem fine_fixed : ∀ k ∈ plainKinds, Fine [fixed k] := by
  intro k hk
  have h : attached (fixed k) = false ∧ isDot (fixed k) = false ∧ (fixed k).kind ≠ .COMMENT := by
    revert k
    decide
  refine Fine.single ⟨spelling k, ?_⟩ h.1 h.2.1 h.2.2
  cases k <;> first | exact absurd hk (by decide) | exact ⟨rfl, rfl⟩

theorem ObjEnd.append {xs ys : List Lexeme} (hne : ys ≠ []) (h : ObjEnd ys) : ObjEnd (xs ++ ys) := by
  intro x hx
  rw [List.getLast?_append] at hx
  cases hl : ys.getLast? with
  | none => exact absurd (List.getLast?_eq_none_iff.1 hl) hne
  | some y =>
    rw [hl] at hx
    cases hx
    exact h _ hl

theorem objEnd_single {x : Lexeme} (h : x.kind ∈ objectEnds) : ObjEnd [x] := by
  intro y hy
  cases hy
  exact h

theorem objEnd_last {xs : List Lexeme} {k : Kind} (h : k ∈ objectEnds) : ObjEnd (xs ++ [fixed k]) :=
  ObjEnd.append (by simp) (objEnd_single h)

theorem fine_symbol {n : List Char} (h : isName n = true) (hr : n ∉ reservedWords) : Fine [⟨.SYMBOL, n⟩] :=
  Fine.single ⟨n, h, hr, rfl⟩ rfl rfl (by simp)

theorem plainName_inv {n : List Char} (h : plainName n = true) :
    isName n = true ∧ nameAhead n = true ∧ n ∉ reservedWords := by
  simp only [plainName, Bool.and_eq_true, decide_eq_true_eq] at h
  exact ⟨h.1.1, h.1.2, h.2⟩

theorem fine_bracket : Fine [bracket false] :=
  Fine.single ⟨['['], .inl rfl, rfl⟩ rfl rfl (by simp [bracket])

/-- `o.name`, `o&.name` -/
theorem Fine.attr {xs : List Lexeme} {n : List Char} {safe : Bool} (hx : Fine xs) (ho : ObjEnd xs)
    (hn : plainName n = true) : Fine (xs ++ [dot safe, ⟨.SYMBOL, n⟩]) where
  ne := by simp
  writable := fun x h => by
    obtain ⟨h1, _, h3⟩ := plainName_inv hn
    simp only [List.mem_append, List.mem_cons, List.not_mem_nil, or_false] at h
    rcases h with h | rfl | rfl
    · exact hx.writable x h
    · cases safe <;> exact ⟨_, rfl, rfl⟩
    · exact ⟨n, h1, h3, rfl⟩
  chain := by
    refine chain_append hx.chain ?_ ?_
    · obtain ⟨_, h2, _⟩ := plainName_inv hn
      cases safe <;> simp [RE.chain, link, attached, dot, fixed, isDot, h2]
    · intro a b ha hb
      cases hb
      have := ho a ha
      cases safe <;> simpa [link, attached, dot, fixed] using this
  first := fun x h => by
    obtain ⟨a, as, rfl⟩ := List.exists_cons_of_ne_nil hx.ne
    exact hx.first x h
  last := fun x h => by
    rw [List.getLast?_append] at h
    cases h
    exact ⟨rfl, by simp⟩

/-- `o[…`, `o&[…` -/
theorem Fine.access {xs ys : List Lexeme} {safe : Bool} (hx : Fine xs) (ho : ObjEnd xs) (hy : Fine ys) :
    Fine (xs ++ bracket safe :: ys) where
  ne := by simp
  writable := fun x h => by
    simp only [List.mem_append, List.mem_cons] at h
    rcases h with h | rfl | h
    · exact hx.writable x h
    · cases safe
      · exact ⟨['['], .inl rfl, rfl⟩
      · exact ⟨['&', '['], .inr rfl, rfl⟩
    · exact hy.writable x h
  chain := by
    refine chain_append hx.chain ?_ ?_
    · obtain ⟨b, bs, rfl⟩ := List.exists_cons_of_ne_nil hy.ne
      have h1 := hy.first b rfl
      simp only [RE.chain, Bool.and_eq_true]
      refine ⟨?_, hy.chain⟩
      cases safe <;> simp [link, h1, isDot, bracket]
    · intro a b ha hb
      cases hb
      have h1 := ho a ha
      have h2 := hx.last a ha
      cases safe
      · simp [link, attached, bracket, h2.1, h2.2]
      · simpa [link, attached, bracket] using h1
  first := fun x h => by
    obtain ⟨a, as, rfl⟩ := List.exists_cons_of_ne_nil hx.ne
    exact hx.first x h
  last := fun x h => by
    rw [List.getLast?_append] at h
    obtain ⟨b, bs, rfl⟩ := List.exists_cons_of_ne_nil hy.ne
    rw [List.getLast?_cons_cons] at h
    cases hl : (b :: bs).getLast? with
    | none => simp at hl
    | some y =>
      rw [hl] at h
      cases h
      exact hy.last _ hl

/-! ## The tokens of a tree -/

/-- the closing part of a list: an optional comma and a bracket -/
theorem fine_close {k : Kind} (hk : k ∈ plainKinds) (comma : Bool) : Fine (trailing comma ++ [fixed k]) := by
  cases comma
  · exact fine_fixed k hk
  · exact (fine_fixed .COMMA (by decide)).append (fine_fixed k hk)

/-- empty or fine -/
def FineOrNil (xs : List Lexeme) : Prop := xs = [] ∨ Fine xs

theorem FineOrNil.append {xs ys : List Lexeme} (hx : FineOrNil xs) (hy : Fine ys) : Fine (xs ++ ys) := by
  rcases hx with rfl | hx
  · exact hy
  · exact hx.append hy

theorem Fine.appendOr {xs ys : List Lexeme} (hx : Fine xs) (hy : FineOrNil ys) : Fine (xs ++ ys) := by
  rcases hy with rfl | hy
  · simpa using hx
  · exact hx.append hy

theorem F (k : Kind) (h : k ∈ plainKinds) : Fine [fixed k] := fine_fixed k h

mutual
theorem toks_fine (codec : LitCodec) : ∀ s : Syn, s.ok codec = true → s.Printable →
    Fine s.toks ∧ (s.isObj = true → ObjEnd s.toks)
  | .bool true, _, _ => ⟨F .TRUE (by decide), by simp [Syn.isObj]⟩
  | .bool false, _, _ => ⟨F .FALSE (by decide), by simp [Syn.isObj]⟩
  | .num t, _, h => ⟨Fine.single ⟨t, h, rfl⟩ rfl rfl (by simp), by simp [Syn.isObj]⟩
  | .nan, _, _ => ⟨F .FLOAT_NAN (by decide), by simp [Syn.isObj]⟩
  | .inf, _, _ => ⟨F .FLOAT_INF (by decide), by simp [Syn.isObj]⟩
  | .null, _, _ => ⟨F .NULL (by decide), fun _ => objEnd_single (by decide)⟩
  | .sym n, _, h => ⟨fine_symbol h.1 h.2, fun _ => objEnd_single (by simp [objectEnds])⟩
  | .str t, _, h => ⟨Fine.single ⟨t, h, .inl rfl⟩ rfl rfl (by simp), fun _ => objEnd_single (by simp [objectEnds])⟩
  | .bytes t, _, h => ⟨Fine.single ⟨'b' :: t, h, rfl⟩ rfl rfl (by simp), fun _ => objEnd_single (by simp [objectEnds])⟩
  | .datetime t, _, h => by
    obtain ⟨q, h1, h2⟩ := h
    exact ⟨Fine.single ⟨_, q, h1, h2, rfl⟩ rfl rfl (by simp), fun _ => objEnd_single (by simp [objectEnds])⟩
  | .timedelta t, _, h => by
    obtain ⟨q, h1, h2⟩ := h
    exact ⟨Fine.single ⟨_, q, h1, h2, rfl⟩ rfl rfl (by simp), fun _ => objEnd_single (by simp [objectEnds])⟩
  | .paren e, ho, h => by
    simp only [Syn.ok] at ho
    obtain ⟨he, _⟩ := toks_fine codec e ho h
    refine ⟨(F .LPAREN (by decide)).cons (he.append (F .RPAREN (by decide))), fun _ => ?_⟩
    exact objEnd_last (xs := fixed .LPAREN :: e.toks) (by decide)
  | .array amp xs comma, ho, h => by
    simp only [Syn.ok, Bool.and_eq_true] at ho
    obtain ⟨rfl, h⟩ := h
    have hx := listToks_fine codec xs ho.1 h
    refine ⟨fine_bracket.cons (hx.append (fine_close (by decide) comma)), fun _ => ?_⟩
    have := objEnd_last (xs := bracket false :: (Syn.listToks xs ++ trailing comma)) (k := .RBRACKET) (by decide)
    simpa [Syn.toks] using this
  | .set xs comma, ho, h => by
    simp only [Syn.ok, Bool.and_eq_true] at ho
    have hx := listToks_fine codec xs ho.1 h
    refine ⟨(F .LBRACE (by decide)).cons (hx.append (fine_close (by decide) comma)), fun _ => ?_⟩
    have := objEnd_last (xs := fixed .LBRACE :: (Syn.listToks xs ++ trailing comma)) (k := .RBRACE) (by decide)
    simpa [Syn.toks] using this
  | .mapping kvs comma, ho, h => by
    simp only [Syn.ok, Bool.and_eq_true] at ho
    have hx := pairToks_fine codec kvs ho.1 h
    refine ⟨(F .LBRACE (by decide)).cons (hx.append (fine_close (by decide) comma)), fun _ => ?_⟩
    have := objEnd_last (xs := fixed .LBRACE :: (Syn.pairToks kvs ++ trailing comma)) (k := .RBRACE) (by decide)
    simpa [Syn.toks] using this
  | .comp amp r v it, ho, h => by
    simp only [Syn.ok, Bool.and_eq_true] at ho
    obtain ⟨rfl, hr, hv, hi⟩ := h
    obtain ⟨h1, _, h3⟩ := plainName_inv hv
    have fr := (toks_fine codec r ho.1 hr).1
    have fi := (toks_fine codec it ho.2 hi).1
    refine ⟨fine_bracket.cons (fr.append ((F .FOR (by decide)).cons ((fine_symbol h1 h3).cons
      ((F .IN (by decide)).cons (fi.append (F .RBRACKET (by decide))))))), fun _ => ?_⟩
    have := objEnd_last (xs := bracket false :: (r.toks ++ (fixed .FOR :: ⟨.SYMBOL, v⟩ :: fixed .IN :: it.toks)))
      (k := .RBRACKET) (by decide)
    simpa [Syn.toks] using this
  | .compIf amp r v it c, ho, h => by
    simp only [Syn.ok, Bool.and_eq_true] at ho
    obtain ⟨rfl, hr, hv, hi, hc⟩ := h
    obtain ⟨h1, _, h3⟩ := plainName_inv hv
    have fr := (toks_fine codec r ho.1.1 hr).1
    have fi := (toks_fine codec it ho.1.2 hi).1
    have fc := (toks_fine codec c ho.2 hc).1
    refine ⟨fine_bracket.cons (fr.append ((F .FOR (by decide)).cons ((fine_symbol h1 h3).cons
      ((F .IN (by decide)).cons (fi.append ((F .IF (by decide)).cons (fc.append (F .RBRACKET (by decide))))))))),
      fun _ => ?_⟩
    have := objEnd_last (xs := bracket false :: (r.toks ++ (fixed .FOR :: ⟨.SYMBOL, v⟩ :: fixed .IN ::
      (it.toks ++ fixed .IF :: c.toks)))) (k := .RBRACKET) (by decide)
    simpa [Syn.toks] using this
  | .attr o n safe, ho, h => by
    simp only [Syn.ok, Bool.and_eq_true] at ho
    obtain ⟨fo, eo⟩ := toks_fine codec o ho.1 h.1
    refine ⟨fo.attr (eo ho.2) h.2, fun _ => ?_⟩
    exact ObjEnd.append (by simp) (fun x hx => by cases hx; simp [objectEnds])
  | .item o i safe, ho, h => by
    simp only [Syn.ok, Bool.and_eq_true] at ho
    obtain ⟨fo, eo⟩ := toks_fine codec o ho.1.1 h.1
    obtain ⟨fi, _⟩ := toks_fine codec i ho.2 h.2
    refine ⟨fo.access (eo ho.1.2) (fi.append (F .RBRACKET (by decide))), fun _ => ?_⟩
    have := objEnd_last (xs := o.toks ++ (bracket safe :: i.toks)) (k := .RBRACKET) (by decide)
    simpa [Syn.toks] using this
  | .slice o safe, ho, h => by
    simp only [Syn.ok, Bool.and_eq_true] at ho
    obtain ⟨fo, eo⟩ := toks_fine codec o ho.1 h
    refine ⟨fo.access (eo ho.2) ((F .COLON (by decide)).append (F .RBRACKET (by decide))), fun _ => ?_⟩
    have := objEnd_last (xs := o.toks ++ [bracket safe, fixed .COLON]) (k := .RBRACKET) (by decide)
    simpa [Syn.toks] using this
  | .sliceTo o b safe, ho, h => by
    simp only [Syn.ok, Bool.and_eq_true] at ho
    obtain ⟨fo, eo⟩ := toks_fine codec o ho.1.1 h.1
    obtain ⟨fb, _⟩ := toks_fine codec b ho.2 h.2
    refine ⟨fo.access (eo ho.1.2) ((F .COLON (by decide)).cons (fb.append (F .RBRACKET (by decide)))), fun _ => ?_⟩
    have := objEnd_last (xs := o.toks ++ (bracket safe :: fixed .COLON :: b.toks)) (k := .RBRACKET) (by decide)
    simpa [Syn.toks] using this
  | .sliceFrom o a safe, ho, h => by
    simp only [Syn.ok, Bool.and_eq_true] at ho
    obtain ⟨fo, eo⟩ := toks_fine codec o ho.1.1 h.1
    obtain ⟨fa, _⟩ := toks_fine codec a ho.2 h.2
    refine ⟨fo.access (eo ho.1.2) (fa.append ((F .COLON (by decide)).append (F .RBRACKET (by decide)))), fun _ => ?_⟩
    have := objEnd_last (xs := o.toks ++ (bracket safe :: (a.toks ++ [fixed .COLON]))) (k := .RBRACKET) (by decide)
    simpa [Syn.toks] using this
  | .sliceBoth o a b safe, ho, h => by
    simp only [Syn.ok, Bool.and_eq_true] at ho
    obtain ⟨fo, eo⟩ := toks_fine codec o ho.1.1.1 h.1
    obtain ⟨fa, _⟩ := toks_fine codec a ho.1.2 h.2.1
    obtain ⟨fb, _⟩ := toks_fine codec b ho.2 h.2.2
    refine ⟨fo.access (eo ho.1.1.2) (fa.append ((F .COLON (by decide)).cons (fb.append (F .RBRACKET (by decide))))),
      fun _ => ?_⟩
    have := objEnd_last (xs := o.toks ++ (bracket safe :: (a.toks ++ fixed .COLON :: b.toks))) (k := .RBRACKET) (by decide)
    simpa [Syn.toks] using this
  | .call f args, ho, h => by
    simp only [Syn.ok, Bool.and_eq_true] at ho
    obtain ⟨ff, _⟩ := toks_fine codec f ho.1.1 h.1
    have fa := listToks_fine codec args ho.2 h.2
    refine ⟨ff.append ((F .LPAREN (by decide)).cons (fa.append (F .RPAREN (by decide)))), fun _ => ?_⟩
    have := objEnd_last (xs := f.toks ++ (fixed .LPAREN :: Syn.listToks args)) (k := .RPAREN) (by decide)
    simpa [Syn.toks] using this
  | .bin op l r, ho, h => by
    simp only [Syn.ok, Bool.and_eq_true, decide_eq_true_eq] at ho
    have fl := (toks_fine codec l ho.1.1.1.2 h.1).1
    have fr := (toks_fine codec r ho.1.1.2 h.2).1
    refine ⟨fl.append ((F op ?_).cons fr), by simp [Syn.isObj]⟩
    exact List.mem_append_right _ ho.1.1.1.1
  | .isIn l r, ho, h => by
    simp only [Syn.ok, Bool.and_eq_true] at ho
    exact ⟨(toks_fine codec l ho.1.1.1 h.1).1.append ((F .IN (by decide)).cons (toks_fine codec r ho.1.1.2 h.2).1),
      by simp [Syn.isObj]⟩
  | .notIn l r, ho, h => by
    simp only [Syn.ok, Bool.and_eq_true] at ho
    exact ⟨(toks_fine codec l ho.1.1.1 h.1).1.append ((F .NOT (by decide)).cons ((F .IN (by decide)).cons
      (toks_fine codec r ho.1.1.2 h.2).1)), by simp [Syn.isObj]⟩
  | .tern c t f, ho, h => by
    simp only [Syn.ok, Bool.and_eq_true] at ho
    exact ⟨(toks_fine codec c ho.1.1.1.1 h.1).1.append ((F .QMARK (by decide)).cons
      ((toks_fine codec t ho.1.1.1.2 h.2.1).1.append ((F .COLON (by decide)).cons
      (toks_fine codec f ho.1.1.2 h.2.2).1))), by simp [Syn.isObj]⟩
  | .not e, ho, h => by
    simp only [Syn.ok, Bool.and_eq_true] at ho
    exact ⟨(F .NOT (by decide)).cons (toks_fine codec e ho.1 h).1, by simp [Syn.isObj]⟩
  | .neg e, ho, h => by
    simp only [Syn.ok, Bool.and_eq_true] at ho
    exact ⟨(F .SUB (by decide)).cons (toks_fine codec e ho.1 h).1, by simp [Syn.isObj]⟩
theorem listToks_fine (codec : LitCodec) : ∀ xs : List Syn, Syn.okList codec xs = true → Syn.PrintableList xs →
    FineOrNil (Syn.listToks xs)
  | [], _, _ => .inl rfl
  | x :: xs, ho, h => by
    simp only [Syn.okList, Bool.and_eq_true] at ho
    exact .inr ((toks_fine codec x ho.1 h.1).1.appendOr (moreToks_fine codec xs ho.2 h.2))
theorem moreToks_fine (codec : LitCodec) : ∀ xs : List Syn, Syn.okList codec xs = true → Syn.PrintableList xs →
    FineOrNil (Syn.moreToks xs)
  | [], _, _ => .inl rfl
  | x :: xs, ho, h => by
    simp only [Syn.okList, Bool.and_eq_true] at ho
    exact .inr ((F .COMMA (by decide)).cons
      ((toks_fine codec x ho.1 h.1).1.appendOr (moreToks_fine codec xs ho.2 h.2)))
theorem pairToks_fine (codec : LitCodec) : ∀ xs : List (Syn × Syn), Syn.okPairs codec xs = true →
    Syn.PrintablePairs xs → FineOrNil (Syn.pairToks xs)
  | [], _, _ => .inl rfl
  | (k, v) :: xs, ho, h => by
    simp only [Syn.okPairs, Bool.and_eq_true] at ho
    exact .inr ((toks_fine codec k ho.1.1 h.1).1.append ((F .COLON (by decide)).cons
      ((toks_fine codec v ho.1.2 h.2.1).1.appendOr (morePairToks_fine codec xs ho.2 h.2.2))))
theorem morePairToks_fine (codec : LitCodec) : ∀ xs : List (Syn × Syn), Syn.okPairs codec xs = true →
    Syn.PrintablePairs xs → FineOrNil (Syn.morePairToks xs)
  | [], _, _ => .inl rfl
  | (k, v) :: xs, ho, h => by
    simp only [Syn.okPairs, Bool.and_eq_true] at ho
    exact .inr ((F .COMMA (by decide)).cons ((toks_fine codec k ho.1.1 h.1).1.append ((F .COLON (by decide)).cons
      ((toks_fine codec v ho.1.2 h.2.1).1.appendOr (morePairToks_fine codec xs ho.2 h.2.2)))))
end

mutual
theorem parens_printable : ∀ s : Syn, s.Printable → s.parens.Printable
  | .bool _, h | .num _, h | .nan, h | .inf, h | .null, h | .sym _, h | .str _, h | .bytes _, h
  | .datetime _, h | .timedelta _, h => h
  | .paren e, h => parens_printable e h
  | .array _ xs _, h => ⟨h.1, parensList_printable xs h.2⟩
  | .set xs _, h => parensList_printable xs h
  | .mapping kvs _, h => parensPairs_printable kvs h
  | .comp _ r _ it, h => ⟨h.1, parens_printable r h.2.1, h.2.2.1, parens_printable it h.2.2.2⟩
  | .compIf _ r _ it c, h =>
    ⟨h.1, parens_printable r h.2.1, h.2.2.1, parens_printable it h.2.2.2.1, parens_printable c h.2.2.2.2⟩
  | .attr o _ _, h => ⟨wrapped (parens_printable o h.1), h.2⟩
  | .item o i _, h => ⟨wrapped (parens_printable o h.1), parens_printable i h.2⟩
  | .slice o _, h => wrapped (parens_printable o h)
  | .sliceTo o b _, h => ⟨wrapped (parens_printable o h.1), parens_printable b h.2⟩
  | .sliceFrom o a _, h => ⟨wrapped (parens_printable o h.1), parens_printable a h.2⟩
  | .sliceBoth o a b _, h =>
    ⟨wrapped (parens_printable o h.1), parens_printable a h.2.1, parens_printable b h.2.2⟩
  | .call f args, h => ⟨wrapped (parens_printable f h.1), parensList_printable args h.2⟩
  | .bin _ l r, h => ⟨wrapped (parens_printable l h.1), wrapped (parens_printable r h.2)⟩
  | .isIn l r, h => ⟨wrapped (parens_printable l h.1), wrapped (parens_printable r h.2)⟩
  | .notIn l r, h => ⟨wrapped (parens_printable l h.1), wrapped (parens_printable r h.2)⟩
  | .tern c t f, h =>
    ⟨wrapped (parens_printable c h.1), parens_printable t h.2.1, wrapped (parens_printable f h.2.2)⟩
  | .not e, h => wrapped (parens_printable e h)
  | .neg e, h => wrapped (parens_printable e h)
where
  wrapped {b : Bool} {e : Syn} (h : e.Printable) : (e.wrapUnless b).Printable := by
    cases b <;> exact h
theorem parensList_printable : ∀ xs : List Syn, Syn.PrintableList xs → Syn.PrintableList (Syn.parensList xs)
  | [], _ => trivial
  | x :: xs, h => ⟨parens_printable x h.1, parensList_printable xs h.2⟩
theorem parensPairs_printable : ∀ xs : List (Syn × Syn), Syn.PrintablePairs xs →
    Syn.PrintablePairs (Syn.parensPairs xs)
  | [], _ => trivial
  | (k, v) :: xs, h => ⟨parens_printable k h.1, parens_printable v h.2.1, parensPairs_printable xs h.2.2⟩
end

/-! ## A text for the tokens -/

theorem ends_nil {b : Option Char} {x : Lexeme} {m : List Char} (hd : isDot x = false) : Ends b x m [] := by
  obtain ⟨k, t⟩ := x
  refine ⟨?_, fun _ p r hp _ => ?_⟩
  · cases k <;> first
      | (simp [ends, headAll, notAccess, wordKinds]; done)
      | exact absurd hd (by simp [isDot])
  · have := congrArg List.length hp
    simp only [List.length_nil, List.length_append] at this
    exact List.length_eq_zero_iff.1 (by omega)

theorem quoted_last {q : Char} {pre : List Char} (hq : isQuote q = true) :
    behindNonSpace (pre ++ [q]).getLast? = true := by
  simp only [isQuote, Bool.or_eq_true, beq_iff_eq] at hq
  rw [List.getLast?_append]
  rcases hq with rfl | rfl <;> rfl

theorem nameChar_nonSpace {c : Char} (h : isNameChar c = true) : isPySpace c = false := by
  rcases hs : isPySpace c with _ | _
  · rfl
  · exfalso
    have hn : c.toNat = c.val.toNat := rfl
    simp only [isPySpace, Bool.or_eq_true, Bool.and_eq_true, decide_eq_true_eq, beq_iff_eq] at hs
    simp only [isNameChar, Char.isAlphanum, Char.isAlpha, Char.isUpper, Char.isLower, Char.isDigit,
      Bool.or_eq_true, Bool.and_eq_true, decide_eq_true_eq, beq_iff_eq, ge_iff_le, UInt32.le_iff_toNat_le] at h
    rcases h with ((h | h) | h) | rfl
    · have h1 : (65 : Nat) ≤ c.val.toNat := h.1
      have h2 : c.val.toNat ≤ 90 := h.2
      omega
    · have h1 : (97 : Nat) ≤ c.val.toNat := h.1
      have h2 : c.val.toNat ≤ 122 := h.2
      omega
    · have h1 : (48 : Nat) ≤ c.val.toNat := h.1
      have h2 : c.val.toNat ≤ 57 := h.2
      omega
    · exact absurd hs (by decide)

theorem name_last {n : List Char} (h : isName n = true) : behindNonSpace n.getLast? = true := by
  simp only [isName] at h
  cases hd : dropDollar n with
  | nil => rw [hd] at h; cases h
  | cons c r =>
    simp only [hd, Bool.and_eq_true] at h
    have hlast : n.getLast? = (c :: r).getLast? := by
      rw [← hd, dropDollar.eq_def]
      split
      · rename_i cs
        have : cs = c :: r := hd
        rw [this, List.getLast?_cons_cons]
      · rfl
    rw [hlast]
    have hall : ∀ d ∈ c :: r, isNameChar d = true := by
      intro d hm
      rcases List.mem_cons.1 hm with rfl | hm
      · exact isNameStart_name h.1
      · exact List.all_eq_true.1 h.2 d hm
    cases hl : (c :: r).getLast? with
    | none => simp at hl
    | some d =>
      simp [behindNonSpace, nameChar_nonSpace (hall d (List.mem_of_getLast? hl))]

/-- An object does not end with white space. -/
theorem object_last {x : Lexeme} {m : List Char} (hw : Written x m) (hk : x.kind ∈ objectEnds) :
    behindNonSpace m.getLast? = true := by
  obtain ⟨k, t⟩ := x
  have hq : ∀ {t pre : List Char}, Quoted t → behindNonSpace (pre ++ t).getLast? = true := by
    rintro t pre ⟨q, body, h1, _, rfl⟩
    have := quoted_last (pre := pre ++ q :: body) h1
    simpa using this
  have hk : k ∈ objectEnds := hk
  cases k <;> first | exact absurd hk (by decide) | skip
  case SYMBOL => obtain ⟨h, _, rfl⟩ := hw; exact name_last h
  case STRING =>
    obtain ⟨h, rfl | rfl⟩ := hw
    · exact hq (pre := []) h
    · exact hq (pre := ['s']) h
  case BYTES => obtain ⟨h, rfl⟩ := hw; exact hq (pre := ['b']) h
  case DATETIME => obtain ⟨q, h1, h2, rfl⟩ := hw; exact quoted_last (pre := 'd' :: q :: t) h1
  case TIMEDELTA => obtain ⟨q, h1, h2, rfl⟩ := hw; exact quoted_last (pre := 't' :: q :: t) h1
  all_goals obtain ⟨_, rfl⟩ := hw; rfl

/-- Tokens that may follow each other have a text. -/
theorem lay : ∀ (xs : List Lexeme) (x : Lexeme) (b : Option Char), (∀ y ∈ x :: xs, ∃ m, Written y m) →
    chain (x :: xs) = true → (∀ y, (x :: xs).getLast? = some y → isDot y = false) →
    (attached x = true → behindNonSpace b = true) →
    ∃ m ps, Laid b (.tok x m :: ps) ∧ toksOf ps = xs := by
  intro xs
  induction xs with
  | nil =>
    intro x b hw _ hl ha
    obtain ⟨m, hm⟩ := hw x (by simp)
    exact ⟨m, [], ⟨hm, ends_nil (hl x rfl), ha, trivial⟩, rfl⟩
  | cons y xs ih =>
    intro x b hw hc hl ha
    obtain ⟨m, hm⟩ := hw x (by simp)
    simp only [chain, Bool.and_eq_true] at hc
    have hw' : ∀ z ∈ y :: xs, ∃ m, Written z m := fun z hz => hw z (List.mem_cons_of_mem _ hz)
    have hl' : ∀ z, (y :: xs).getLast? = some z → isDot z = false := fun z hz =>
      hl z (by rwa [List.getLast?_cons_cons])
    have hlink := hc.1
    simp only [link] at hlink
    by_cases hy : attached y = true
    · rw [if_pos hy] at hlink
      simp only [decide_eq_true_eq] at hlink
      obtain ⟨my, ps, h1, h2⟩ := ih y m.getLast? hw' hc.2 hl' (fun _ => object_last hm hlink)
      refine ⟨m, .tok y my :: ps, ⟨hm, ?_, ha, h1⟩, by simp [h2]⟩
      have hmy : ∃ c r, my = c :: r ∧ (c = '.' ∨ c = '&') := by
        obtain ⟨k, t⟩ := y
        have hwy := h1.1
        simp only [attached, Bool.or_eq_true, decide_eq_true_eq, Bool.and_eq_true] at hy
        rcases hy with (rfl | rfl) | ⟨rfl, rfl⟩
        · exact ⟨_, _, hwy.2, .inl rfl⟩
        · exact ⟨_, _, hwy.2, .inr rfl⟩
        · exact ⟨_, _, hwy.2, .inr rfl⟩
      obtain ⟨c, r, rfl, hcc⟩ := hmy
      obtain ⟨k, t⟩ := x
      have hlink : k ∈ objectEnds := hlink
      have hp : isNameChar c = false ∧ isQuote c = false := by rcases hcc with rfl | rfl <;> decide
      refine ⟨?_, fun hf => by
        simp only at hf
        rw [hf] at hlink
        exact absurd hlink (by decide)⟩
      cases k <;> first
        | exact absurd hlink (by decide)
        | simp [ends, headAll, wordKinds, hp.1, hp.2]
    · have hyf : attached y = false := by simpa using hy
      rw [if_neg hy] at hlink
      by_cases hd : isDot x = true
      · rw [if_pos hd] at hlink
        simp only [Bool.and_eq_true, decide_eq_true_eq] at hlink
        obtain ⟨my, ps, h1, h2⟩ := ih y m.getLast? hw' hc.2 hl' (fun h => absurd h hy)
        refine ⟨m, .tok y my :: ps, ⟨hm, ?_, ha, h1⟩, by simp [h2]⟩
        have hmy : my = y.text := by
          obtain ⟨k, t⟩ := y
          have hk : k = .SYMBOL := hlink.1
          subst hk
          exact h1.1.2.2
        have hn : nameAhead (my ++ textOf ps) = true := by
          rw [hmy]
          cases ht : y.text with
          | nil => rw [ht] at hlink; exact absurd hlink.2 (by simp [nameAhead])
          | cons c r =>
            have := hlink.2
            rw [ht] at this
            exact this
        obtain ⟨k, t⟩ := x
        simp only [isDot, Bool.or_eq_true, decide_eq_true_eq] at hd
        rcases hd with rfl | rfl
        · exact ⟨hn, by simp⟩
        · exact ⟨hn, by simp⟩
      · have hdf : isDot x = false := by simpa using hd
        rw [if_neg hd] at hlink
        simp only [decide_eq_true_eq] at hlink
        obtain ⟨my, ps, h1, h2⟩ := ih y (some ' ') hw' hc.2 hl' (fun h => absurd h hy)
        refine ⟨m, .gap ' ' :: .tok y my :: ps, ⟨hm, ?_, ha, rfl, h1⟩, by simp [h2]⟩
        have := Ends.stop (b := b) (x := x) (m := m) (a := []) (rest := []) (r := my ++ textOf ps)
          (c := ' ') (by decide) hlink (fun _ => by
            simp only [isDot, Bool.or_eq_false_iff, decide_eq_false_iff_not] at hdf
            exact hdf) (ends_nil hdf)
        simpa using this

/-- Fine tokens have a text. -/
theorem Fine.lay {xs : List Lexeme} (h : Fine xs) : ∃ ps, Laid none ps ∧ toksOf ps = xs := by
  obtain ⟨x, xs, rfl⟩ := List.exists_cons_of_ne_nil h.ne
  obtain ⟨m, ps, h1, h2⟩ := RE.lay xs x none h.writable h.chain (fun y hy => (h.last y hy).1)
    (fun ha => by rw [h.first x rfl] at ha; cases ha)
  exact ⟨_, h1, by simp [h2]⟩

/-- **C40.** Every syntax tree with names and literals that can be written has a text: with the
parentheses the precedence table requires, and no others.  Whatever the text's spacing, it parses back
to the tree. -/
theorem print_parse (codec : LitCodec) (s : Syn) (hs : s.wf codec = true) (hp : s.Printable) :
    (∃ ps, Laid none ps ∧ toksOf ps = s.parens.toks) ∧
    ∀ ps, Laid none ps → toksOf ps = s.parens.toks → ∀ line,
      (parseText codec line (String.ofList (textOf ps))).out = .ok (s.raw codec, none) := by
  refine ⟨(toks_fine codec s.parens (parens_ok codec s hs) (parens_printable s hp)).1.lay, ?_⟩
  intro ps h ht line
  rw [parse_text codec line s hs ps h ht]

end RE
