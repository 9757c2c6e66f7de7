import Verif.Props.Accept
import Verif.Props.Strings

/-!
# C63: the regular expression operators

Whole rules `(a) =~ (b)`, `(a) =~~ (b)`, `(a) !~ (b)`, `(a) !~~ (b)`, for every pair of texts `a`, `b`.  The regular
expression engine itself is `re` of the Python library: `Env.reValid` and `Env.reRun` are arbitrary.
-/

set_option linter.unusedSimpArgs false

namespace RE

/-- What `left OP right` gives, from what the two operands give, evaluated one after the other: `search` for an
operator that searches the whole text (rather than only matching at its start), `negate` for one that asks for no match.
Written down from docs/source/syntax.rst, not from the code. -/
inductive RegexGives (env : Env) (search negate : Bool) (left right : M Value) (s : St) : Except Err Value → Prop
  /-- an exception of the left operand is that of the whole -/
  | left_raises (err s1) : left s = (.error err, s1) → RegexGives env search negate left right s (.error err)
  /-- the left operand has to be a string or null; the right one is not evaluated if it is not -/
  | left_other (v s1) : left s = (.ok v, s1) → v ≠ .none → (∀ t, v ≠ .str t) →
      RegexGives env search negate left right s (.error (.eng .evaluation))
  | right_raises (v s1 err s2) : left s = (.ok v, s1) → (v = .none ∨ ∃ t, v = .str t) →
      right s1 = (.error err, s2) → RegexGives env search negate left right s (.error err)
  | right_other (v s1 w s2) : left s = (.ok v, s1) → (v = .none ∨ ∃ t, v = .str t) → right s1 = (.ok w, s2) →
      w ≠ .none → (∀ t, w ≠ .str t) → RegexGives env search negate left right s (.error (.eng .evaluation))
  /-- null is matched by null and by nothing else, and null matches nothing else -/
  | both_null (s1 s2) : left s = (.ok .none, s1) → right s1 = (.ok .none, s2) →
      RegexGives env search negate left right s (.ok (.bool (!negate)))
  | no_pattern (t s1 s2) : left s = (.ok (.str t), s1) → right s1 = (.ok .none, s2) →
      RegexGives env search negate left right s (.ok (.bool negate))
  /-- a pattern is compiled whatever the left operand is -/
  | bad_pattern (v s1 p s2) : left s = (.ok v, s1) → (v = .none ∨ ∃ t, v = .str t) → right s1 = (.ok (.str p), s2) →
      env.reValid p = false → env.reLimit p = false → RegexGives env search negate left right s (.error (.eng .regexSyntax))
  /-- only `re.error` becomes RegexSyntaxError: `re.compile` raises OverflowError for repetitions like `x{4294967296}` -/
  | huge_pattern (v s1 p s2) : left s = (.ok v, s1) → (v = .none ∨ ∃ t, v = .str t) → right s1 = (.ok (.str p), s2) →
      env.reValid p = false → env.reLimit p = true → RegexGives env search negate left right s (.error (.py .overflowError))
  | no_text (s1 p s2) : left s = (.ok .none, s1) → right s1 = (.ok (.str p), s2) → env.reValid p = true →
      RegexGives env search negate left right s (.ok (.bool negate))
  | found (t s1 p s2 groups) : left s = (.ok (.str t), s1) → right s1 = (.ok (.str p), s2) → env.reValid p = true →
      env.reRun search p t = some groups → RegexGives env search negate left right s (.ok (.bool (!negate)))
  | not_found (t s1 p s2) : left s = (.ok (.str t), s1) → right s1 = (.ok (.str p), s2) → env.reValid p = true →
      env.reRun search p t = none → RegexGives env search negate left right s (.ok (.bool negate))

/-- the four operators as they are written, and whether they search and negate -/
def regexOps : List (List Char × Bool × Bool) :=
  [(" =~ ".toList, false, false), (" =~~ ".toList, true, false), (" !~ ".toList, false, true),
    (" !~~ ".toList, true, true)]

theorem regexOps_kind {op : List Char} {search negate : Bool} (h : (op, search, negate) ∈ regexOps) :
    ∃ k ∈ binaryKinds, meaning k = .fuzzy search negate ∧ ' ' :: (spelling k ++ [' ']) = op := by
  simp only [regexOps, List.mem_cons, Prod.mk.injEq, List.not_mem_nil, or_false] at h
  rcases h with ⟨rfl, rfl, rfl⟩ | ⟨rfl, rfl, rfl⟩ | ⟨rfl, rfl, rfl⟩ | ⟨rfl, rfl, rfl⟩
  · exact ⟨.EQ_FZM, by decide, rfl, by decide⟩
  · exact ⟨.EQ_FZS, by decide, rfl, by decide⟩
  · exact ⟨.NE_FZM, by decide, rfl, by decide⟩
  · exact ⟨.NE_FZS, by decide, rfl, by decide⟩

theorem evalBin_regex (env : Env) (dc : DecCtx) (search negate : Bool) (l r : M Value) (s : St) :
    RegexGives env search negate l r s (evalBin env dc (.fuzzy search negate) l r s).1 := by
  simp only [evalBin]
  rcases hl : l s with ⟨err | v, s1⟩
  · rw [bind_err' hl]
    exact .left_raises _ _ hl
  rw [bind_ok' hl]
  have key : ∀ v, l s = (.ok v, s1) → (v = .none ∨ ∃ t, v = .str t) →
      RegexGives env search negate l r s (((do let b ← r; opFuzzy env search negate v b) : M Value) s1).1 := by
    intro v hl hv
    rcases hr : r s1 with ⟨err | w, s2⟩
    · rw [bind_err' hr]
      exact .right_raises _ _ _ _ hl hv hr
    rw [bind_ok' hr]
    cases w
    case str p =>
      simp only [opFuzzy]
      by_cases hp : env.reValid p = true
      · simp only [hp, if_true]
        rcases hv with rfl | ⟨t, rfl⟩
        · exact .no_text _ _ _ hl hr hp
        · rcases hm : env.reRun search p t with _ | groups <;> simp only [hm]
          · exact .not_found _ _ _ _ hl hr hp hm
          · exact .found _ _ _ _ _ hl hr hp hm
      · simp only [hp, Bool.false_eq_true, if_false]
        by_cases hlim : env.reLimit p = true
        · simp only [Env.reError, hlim, if_true]
          exact .huge_pattern _ _ _ _ hl hv hr (by simpa using hp) hlim
        · simp only [Env.reError, hlim, Bool.false_eq_true, if_false]
          exact .bad_pattern _ _ _ _ hl hv hr (by simpa using hp) (by simpa using hlim)
    case none =>
      rcases hv with rfl | ⟨t, rfl⟩
      · exact .both_null _ _ hl hr
      · exact .no_pattern _ _ _ hl hr
    all_goals exact .right_other _ _ _ _ hl hv hr (by simp) (by simp)
  cases v
  case str t => exact key _ hl (.inr ⟨t, rfl⟩)
  case none => exact key _ hl (.inl rfl)
  all_goals exact .left_other _ _ hl (by simp) (by simp)

/-- **C63.** What a rule that is a regular expression operator between two parts gives, whatever the parts, the thing
evaluated and the state of the process: `RegexGives` of what the parts give. -/
theorem regex_operator {codec : LitCodec} {env : Env} {dct : DecCtx} {a b op : List Char} {l r e : Expr}
    (ha : Part codec env dct a l) (hb : Part codec env dct b r) {search negate : Bool}
    (ho : (op, search, negate) ∈ regexOps) (acts : List TextAct)
    (h : outcome codec env dct acts (par a ++ op ++ par b) = .ok e) :
    ∀ (dc : DecCtx) (thing : Value) (s : St),
      RegexGives env search negate (eval env dc thing l) (eval env dc thing r) s (eval env dc thing e s).1 := by
  obtain ⟨k, hk, hm, rfl⟩ := regexOps_kind ho
  obtain ⟨ra, hma, hba⟩ := ha.build
  obtain ⟨rb, hmb, hbb⟩ := hb.build
  obtain ⟨s0, hs, hout⟩ := outcome_of (env := env) (dct := dct) (acts := acts) (means_bin hma hmb k hk)
  obtain ⟨s1, h1, hs1⟩ := hba s0 hs
  obtain ⟨s2, h2, hs2⟩ := hbb s1 hs1
  simp only [List.cons_append, List.append_assoc, List.singleton_append, List.nil_append] at h
  rw [hout] at h
  simp only [RE.build] at h
  rw [bind_ok' h1, bind_ok' h2, hm] at h
  intro dc thing s
  unfold mkBin at h
  rcases hc : (BinOp.fuzzy search negate).check env l r with err | u
  · rw [hc] at h; cases h
  rw [hc, lift_ok_bind, M.ite_app] at h
  by_cases hred : (l.reduced && r.reduced) = true
  · rw [if_pos hred] at h
    simp only [Bool.and_eq_true] at hred
    obtain ⟨x, hx⟩ := reduced_const env l hred.1
    obtain ⟨y, hy⟩ := reduced_const env r hred.2
    unfold foldLit at h
    have hev := evalBin_regex env dct search negate (M.lift x) (M.lift y) s2
    rcases hv : eval env dct .none (.bin (.fuzzy search negate) l r) s2 with ⟨err | v, s3⟩
    · rw [bind_err' hv] at h; cases h
    rw [bind_ok' hv] at h
    simp only [eval, hx, hy] at hv
    rw [hv] at hev
    rw [hx, hy]
    have hl : ∃ bb, v = .bool bb := by cases hev <;> exact ⟨_, rfl⟩
    obtain ⟨bb, rfl⟩ := hl
    have he : e = .lit (.bool bb) .boolean := by
      cases h
      rfl
    subst he
    show RegexGives env search negate (M.lift x) (M.lift y) s (.ok (.bool bb))
    have hlift : ∀ (z : Except Err Value) (w : Value) (s1 s2 s3 : St), M.lift z s1 = (.ok w, s2) → M.lift z s3 = (.ok w, s3) := by
      intro z w s1 s2 s3 hz
      cases hz
      rfl
    simp only at hev
    generalize hg : (Except.ok (Value.bool bb) : Except Err Value) = g at hev ⊢
    cases hev with
    | left_raises | left_other | right_raises | right_other | bad_pattern | huge_pattern => cases hg
    | both_null _ _ i j => exact .both_null s s (hlift _ _ _ _ _ i) (hlift _ _ _ _ _ j)
    | no_pattern _ _ _ i j => exact .no_pattern _ s s (hlift _ _ _ _ _ i) (hlift _ _ _ _ _ j)
    | no_text _ _ _ i j k => exact .no_text s _ s (hlift _ _ _ _ _ i) (hlift _ _ _ _ _ j) k
    | found _ _ _ _ _ i j k m => exact .found _ s _ s _ (hlift _ _ _ _ _ i) (hlift _ _ _ _ _ j) k m
    | not_found _ _ _ _ i j k m => exact .not_found _ s _ s (hlift _ _ _ _ _ i) (hlift _ _ _ _ _ j) k m
  · rw [if_neg hred] at h
    cases h
    exact evalBin_regex env dc search negate _ _ s

/-- `RegexGives` leaves one answer: the table is consistent, for every pair of operands. -/
theorem RegexGives.unique {env : Env} {search negate : Bool} {l r : M Value} {s : St} {x y : Except Err Value}
    (hx : RegexGives env search negate l r s x) (hy : RegexGives env search negate l r s y) : x = y := by
  cases hx <;> cases hy <;> grind

/-- A string literal is a rule: between two quotes a text without that quote (but for escaped ones), which spells a
string. -/
theorem means_string {codec : LitCodec} {q : Char} {t : List Char} {v : String} (hq : isQuote q = true)
    (ht : quotedBody q t = true) (hv : codec.str t = some v) : Means codec (q :: (t ++ [q])) (.lit (.str v)) := by
  intro line
  have hw : Written ⟨.STRING, q :: (t ++ [q])⟩ (q :: (t ++ [q])) := ⟨⟨q, t, hq, ht, rfl⟩, .inl rfl⟩
  have he : ∀ b, Ends b ⟨.STRING, q :: (t ++ [q])⟩ (q :: (t ++ [q])) [] := fun _ => ⟨rfl, fun h => by cases h⟩
  have h3 : (q :: (t ++ [q])).tail.dropLast = t := by simp
  have := parse_single codec line (.str (q :: (t ++ [q]))) (by simp only [Syn.wf, h3, hv]; rfl)
    ⟨.STRING, q :: (t ++ [q])⟩ rfl _ [] [] hw he rfl (by simp) (by simp)
  have hr : Syn.raw codec (.str (q :: (t ++ [q]))) = .lit (.str v) := by simp only [Syn.raw, h3, hv]; rfl
  rw [hr] at this
  simpa using this

/-- **C63.** A pattern that is written as a literal is compiled when the rule is made: if it is invalid, the text is
refused with RegexSyntaxError, or with the OverflowError of `re.compile` (provided the left part may be a string or null at all: EvaluationError otherwise). -/
theorem invalid_pattern_refused {codec : LitCodec} {env : Env} {dct : DecCtx} {a b op : List Char} {l : Expr} {p : String}
    (ha : Part codec env dct a l) (hb : Part codec env dct b (.lit (.str p) .string)) {search negate : Bool}
    (ho : (op, search, negate) ∈ regexOps) (hp : env.reValid p = false) (acts : List TextAct) :
    outcome codec env dct acts (par a ++ op ++ par b) =
      if l.rt = .undefined ∨ l.rt = .null ∨ l.rt = .string then
        .error (if env.reLimit p then .py .overflowError else .eng .regexSyntax)
      else .error (.eng .evaluation) := by
  obtain ⟨k, hk, hm, rfl⟩ := regexOps_kind ho
  obtain ⟨ra, hma, hba⟩ := ha.build
  obtain ⟨rb, hmb, hbb⟩ := hb.build
  obtain ⟨s0, hs, hout⟩ := outcome_of (env := env) (dct := dct) (acts := acts) (means_bin hma hmb k hk)
  obtain ⟨s1, h1, hs1⟩ := hba s0 hs
  obtain ⟨s2, h2, hs2⟩ := hbb s1 hs1
  simp only [List.cons_append, List.append_assoc, List.singleton_append, List.nil_append]
  rw [hout]
  simp only [RE.build]
  rw [bind_ok' h1, bind_ok' h2, hm]
  unfold mkBin
  have hc : (BinOp.fuzzy search negate).check env l (.lit (.str p) .string) =
      if l.rt = .undefined ∨ l.rt = .null ∨ l.rt = .string then
        .error (if env.reLimit p then .py .overflowError else .eng .regexSyntax)
      else .error (.eng .evaluation) := by
    generalize hlt : l.rt = lt
    by_cases hu : lt = .undefined ∨ lt = .null ∨ lt = .string
    · rcases hu with rfl | rfl | rfl <;> 
        (simp only [BinOp.check, hlt, Expr.rt, hp]; rfl)
    · rw [if_neg hu]
      have hnf : ¬ Fits (.fuzzy search negate) l.rt (Expr.lit (.str p) .string).rt := by
        rintro ⟨l', r', t, h1, h2, h3⟩
        cases h3 with
        | logic _ _ _ ho _ _ => simp at ho
        | fuzzy _ _ _ _ hl hr =>
          rw [hlt] at h1
          rcases h1 with h1 | h1
          · exact hu (.inl h1)
          · subst h1
            simp only [List.mem_cons, List.not_mem_nil, or_false] at hl
            exact hu (.inr hl)
      exact check_refused env _ l _ hnf
  rw [hc]
  split <;> rfl

/-- The hypotheses are met: `(x) =~ (y)` is accepted, and it matches, finds no match, and refuses a number and an
invalid pattern. -/
example (codec : LitCodec) : ∃ l r e,
    Part codec sampleEnv .default ['x'] l ∧ Part codec sampleEnv .default ['y'] r ∧
    outcome codec sampleEnv .default [] (par ['x'] ++ " =~ ".toList ++ par ['y']) = .ok e ∧
    (Proc.new.evaluate sampleEnv e (dictOf [("x", .str "a"), ("y", .str "a")])).1 = .ok (.bool true) ∧
    (Proc.new.evaluate sampleEnv e (dictOf [("x", .none), ("y", .str "a")])).1 = .ok (.bool false) ∧
    (Proc.new.evaluate sampleEnv e (dictOf [("x", .none), ("y", .none)])).1 = .ok (.bool true) ∧
    (Proc.new.evaluate sampleEnv e (dictOf [("x", .str "a"), ("y", .str "(")])).1 = .error (.eng .regexSyntax) ∧
    (Proc.new.evaluate sampleEnv e (dictOf [("x", .none), ("y", .str "x{4294967296}")])).1 =
      .error (.py .overflowError) ∧
    (Proc.new.evaluate sampleEnv e (dictOf [("x", .dec (.ofInt 1)), ("y", .str "a")])).1 =
      .error (.eng .evaluation) := by
  have hx : Means codec ['x'] (.sym "x" false) := means_sym x_word
  have hy : Means codec ['y'] (.sym "y" false) := means_sym ⟨by decide, by decide⟩
  have h := rule_of_means (env := sampleEnv) (dct := .default) (means_bin hx hy .EQ_FZM (by decide))
  refine ⟨_, _, _, ⟨⟨_, hx⟩, [], (rule_of_means hx).trans rfl⟩, ⟨⟨_, hy⟩, [], (rule_of_means hy).trans rfl⟩,
    h.trans rfl, ?_⟩
  decide +kernel

/-- The hypotheses of `invalid_pattern_refused` are met, by `(x) =~ ("(")`. -/
example : ∃ l, Part plainCodec sampleEnv .default ['x'] l ∧
    Part plainCodec sampleEnv .default "\"(\"".toList (.lit (.str "(") .string) ∧ sampleEnv.reValid "(" = false := by
  have hx : Means plainCodec ['x'] (.sym "x" false) := means_sym x_word
  have hp : Means plainCodec "\"(\"".toList (.lit (.str "(")) := means_string (q := '"') (t := ['(']) rfl rfl rfl
  exact ⟨_, ⟨⟨_, hx⟩, [], (rule_of_means hx).trans rfl⟩, ⟨⟨_, hp⟩, [], (rule_of_means hp).trans rfl⟩, by decide⟩

end RE
