# DESIGN — a Lean 4 model of zeroSteiner/rule-engine and its properties

(This file was written before the proofs and is kept current; section 5 records where the code
contradicts an ideal property.)

## 1. Trusted base

* Lean 4.33's kernel.  No axioms are added; every theorem depends at most on `propext`,
  `Classical.choice`, `Quot.sound` (checked with `#print axioms`; vcheck repeats the check).
  No `native_decide`, no `bv_decide`.  Mathlib is imported one module at a time.
* The correspondence between the Python source in `/repo` and the Lean definitions in
  `/verif/lean/Verif/Model`.  The code is not executed here; every definition cites the file and
  the lines it was read from and names its simplifications.
* The reading of the Python runtime (what `operator.add`, `tuple.__eq__`, `decimal`, `str.split`,
  slices … do) — these are modelled as explicit definitions where feasible and as *oracle
  parameters* (fields of the `Env` structure, universally quantified in every theorem) where not.

## 2. What is modelled

| Lean module (`Verif/Model/…`) | Code |
|---|---|
| `Dec` | `decimal.Decimal` arithmetic under a context: rounding, overflow, `+ - * / // %`, neg, abs, comparison (`_pydecimal` algorithms) |
| `Value` | the Python values that may reach the engine; `DataType` definitions, `is_compatible`, `__eq__`; exceptions |
| `PyOps` | Python `==`, `<`, truthiness, hashing, slicing, indexing, `in` on these values |
| `Types` | `types.py`: `from_value`, `coerce_value`, number predicates |
| `Env` | the oracles; the state monad: exceptions + per-thread storage (assignment scopes, `$re_groups`) + `Context.symbols` + a ghost log of external calls |
| `Text` | `parser/utilities.py` (number and timedelta literals), `str.strip`, `str.split`, `Decimal(str)` |
| `Float64` | binary64 rounding, CPython's `timedelta` constructor on floats (timedelta literals), division of ints, float literals and `repr(float)` (`total_seconds`, `to_epoch`, `millisecond`, `to_flt`) |
| `Codec` | hex and base64 of `binascii` |
| `Attr`, `Arith`, `Builtins` | `engine.py` attribute resolver, operators on values, `builtins.py` |
| `Expr`, `Eval`, `Build` | every node class of `ast.py`: result types, constructor checks, `reduce`, `evaluate`, `build` |
| `Rule` | `Rule.__init__/evaluate/matches/filter/is_valid`, `resolve_item`, `type_resolver_from_dict` |
| `Suggest` | `suggestions.py`, with an arbitrary monotone rounding of float arithmetic |
| `Lexer` | the PLY lexer: rules of `parser/__init__.py` in PLY's order, line and position counting |
| `Tables` | the LALR tables of `parser/parsetab.py`, generated by `scripts/gen_tables.py` |
| `Parser` | PLY's LR driver, the grammar actions, `ParserBase.parse` |
| `StrLit` | the decoding of string literals (the `unicode-escape` codec, both ways) and of bytes literals |
| `Hints` | `DataType.from_type`: Python classes and type hints as data types |
| `Conc` | threads sharing a Context (thread-local storage), and the parser mutex |
| `Reenter` | evaluation when the resolver or a function evaluates rules of the same context (engine.py 404-417, 497-541, 635-646; ast.py 677-712, 1001-1132) |
| `Graph` | `to_graphviz` of every node class and of `Rule`: the commands issued, with labels as class name and content (not their text) and positions in the tree for `id(self)` |
| `World` | `evaluate` of every node class again, with a resolver, functions, clock and random numbers whose answers depend on everything that has happened before (the ghost log) |
| `Objects` | `resolve_attribute` (`hasattr`, then `getattr`) for objects whose attributes may answer differently at each reading |
| `RuleClass` | `Rule` and `DebugRule` as classes: the parser of the class and of the object, `text`, `statement`, `str`; not PLY's debug log and table files, not `repr` |
| `Repl` | the loop of the debug REPL (debug_repl.py): the debug command, `Rule`, `evaluate`, which exception is printed how; not the argument parser and the edit console, not the texts of the messages |
| `Advice` | the attribute `suggestion` of SymbolResolutionError and AttributeResolutionError, at the places that raise them with `resolve_item` and `type_resolver_from_dict`; not the suggestion of `resolve_attribute` (from `dir(thing)`) |
| `Orders` | `evalAnyOrder`: evaluation (ast.py 106-113 and the node classes) with the sets in the value of every node listed in an order that a function of the state and the value chooses; constants folded when the rule is built are listed in the order of insertion |
| `Sample` | a concrete environment, used only by the examples |

The theorems are in `Verif/Props`:
`Types` (C10–C12), `Eval` (C03–C05, C13, C15, C20), `State` (C14, C15, C17, C19), `Calls` (C27, C28, C45),
`Names` (C13, C44), `DecVal`, `DecRound`, `Arith` (C24, C25), `Compare`, `Order` (C06, C07), `Collections` (C22,
C32), `Bits` (C23), `Seqs` (C21), `Times` (C26, C37), `RuleApi` (C30, C31, C33), `Text` (C34, C36), `BuiltinFns`
(C35, C47), `Literals`, `Float64` (C38, C39), `TypeSound` (C09), `Sound`, `SoundAttr`, `SoundCalls`, `SoundRule` (C08),
`Conc` (C18, C42), `Suggest` (C43), `Scope` (C16), `Reduced`, `Canonical`, `Interp` (C01, C46), `Thread` (C02),
`Syntax`, `Parse`, `ParseStack`, `ParseSound`, `ParseAll`, `Parens`, `ParseText`, `Print` (C40, C49), `Layout`,
`Lex`, `LexHit`, `LexText`, `Spacing` (C41), `Lines` (C48), `Normal` (C50), `Leaks`, `Escape`, `Typed` (C29), `RuleText` (rules given as texts: C08, C14, C17, C27, C29, C31, C33, C50), `LiteralText` (literals as texts: C38, C39, C49), `Strings` (C51, C52), `FloatRepr`, `Numbers` (C53), `NumText` (C54), `Hints` (C55), `Compose`, `ComposeMore` (C56), `Laws` (C57), `Locality`, `NameErrors` (C58), `Accept` (C59), `Basics` (tables of C12, C13), `TypeDefs` (C60), `BuiltinsMap` (C61), `ContextInit` (C62), `Regex` (C63), `MapFilter` (C64), `Consts`, `AttrRules` (C65); `ErrorKinds` (C66), `LookupOrder` (C67), `RuleParts`, `RuleCalls` (C68), `RuleLaws` (C69), `RuleComp` (C70), `RuleSwap` (C71), `Reenter` (C72), `RuleBuiltins` (C73), `WellFormed` (C74), `Graph` (C75), `World` (C76), `Objects` (C77), `RuleClass` (C78), `Gradual` (C79); `RuleEach` (C80), `Repl` (C81), `Advice` (C82), `Settings`, `SettingsRule` (C83), `Alpha` (C84), `SetOrder`, `SetOrderCalls`, `SetOrderRule`, `SetOrderAny` (C85);
`Closure` and `Built` are the two induction principles most of them use (over evaluation, over construction).

Not modelled: the texts of graphviz labels, `debug_ast`, the REPL's argument parser and edit console, exception message texts, subclasses of builtin Python types, sNaN and NaN payloads, custom decimal
traps, the NaN identity shortcut of containers, Python's unspecified set iteration order (the
model uses insertion order; C85 shows for a large class of rules that any other order gives the same), recursion limits and memory exhaustion, lone surrogates in strings,
ints of more digits than `sys.get_int_max_str_digits()` in the user's data or from `$range` and `$random` (the limit is
modelled for `<<`, `.floor`, `.ceiling`, `.to_flt` and `.to_int`).

Oracles (fields of `Env`): the user's resolver and type resolver, user functions, the regex engine
(`re.compile/match/search`), `tzinfo.utcoffset/tzname`, Decimal `**`, Unicode case mapping, text
codecs, ISO-8601 datetime parsing, the clock, random numbers, the digit limit of `repr(int)`, the suggestion text attached to errors.  All theorems
quantify over them.  Theorems about parsing quantify over the decoding of string and bytes literals
(`LitCodec`); `StrLit` models the one in the code (`pyCodec`), up to the names of Unicode characters in
`\N{…}` and surrogates, which are parameters.

Assumptions that are not visible in the theorem statements:

* Oracles are functions of their arguments: a resolver or user function has no state of its own and
  does not evaluate another rule of the same Context in the same thread (such re-entrant use resets
  the outer evaluation's variables, `Rule.evaluate` calls `_tls.reset()`).  C72 drops the latter assumption: it
  bounds what re-entrant use can do to any rule.  C76 drops the former: answers may depend on the whole history of the
  evaluation; order and number of questions are as before, and results are those of oracles without state whenever
  the answers given are (always, for a resolver, if no name is written twice).  A fresh oracle for every
  evaluation is allowed, since the theorems quantify over the environment of each evaluation.
* PLY 3.11's semantics: the master regular expression tries the function rules in order of
  definition, then the string rules by decreasing length of their pattern; `re.VERBOSE`; the LR driver
  `parseopt_notrack`; `defaulted_states`.  The lexer gets no feedback from the parser, so the token
  stream is modelled as a list and the way it stops.
* The tables are those of the committed `parsetab.py`.  At run time PLY may regenerate them (its
  signature includes the order of the tokens); that yields the same automaton up to numbering.
* Atomic steps of a thread are the single accesses to shared objects (CPython's GIL).

## 3. How properties are stated

Specifications live next to the theorems (`Verif/Props/…`) and are written in terms of ordinary
mathematics (rationals, lists, `∃ rest, v = p ++ rest`, …), not with the model's helpers.
Each theorem is followed by an `example` showing a non-trivial instance of its hypotheses.

## 4. Plan per property

* C01/C46: `naive : Raw → Expr` translates a parse tree without folding and without types.
  Simulation between `eval (build raw)` and `eval (naive raw)` by induction over the parse tree.
* C02: two-context evaluation; negation witness for folding, theorem for non-folded expressions.
* C03–C05, C13, C15, C19–C22, C28, C32, C44, C45: equational theorems on `eval` for arbitrary
  sub-expressions, states and environments.
* C06, C07: structural induction on values.
* C08, C09, C12: semantic typing relation `HasType`, induction over expressions.
* C10, C11: induction over data types / values.
* C14: every resolver call logged during evaluation names a member of `Context.symbols`; induction.
* C16: negation witness (outer shadows inner) + theorem for distinct names.
* C17: evaluation from any state; scope-balance invariant, induction over expressions and histories.
* C18, C42: interleaving semantics; invariant/commutation over all schedules.
* C23: `Nat` bit operations through Decimal conversion; sets as membership predicates.
* C24, C25: rational-valued semantics of Decimal.
* C26, C37: integer arithmetic on microseconds.
* C27: `_new_value`.
* C29, C31: classification of escaping Python errors; negation witnesses; safe fragment.
* C30: list filter with exceptions.
* C33: induction over the parse tree.
* C34, C35, C36: list induction.
* C38, C39: literal readers against positional-notation specifications; the float arithmetic of durations by
  error bounds for round-to-nearest (`fl64_nearest`).
* C40, C41, C48: lexer + LR tables; table facts by `decide +kernel`, lifted by induction over trees.
* C43: rational similarity score.
* C47: list induction over the builtin implementations.
* C49: termination measure of the LR driver, exhaustiveness of the tables.
* C50: invariant over evaluation and construction.
* C54: `str(Decimal)` writes a decimal number with the same digits and exponent (cases of the position of the point), which the literal theorems of C38 read back.
* C55: induction on the hint; a specification of annotated values (`Value.Annotated`) and of the hints that have a data type.
* C56: what the text of the larger rule lexes to (the layout relation of C41) and `parse_as_written`, for each place a rule can stand in.
* C57: C56 gives the trees of both texts; the nodes the constructors make of them, folded or not, evaluate alike, operand by operand.
* C58: a relation between computations that share their comprehension variables, closed under the combinators, gives locality; induction over expressions with the variables in scope gives the origin of each error about a name; the names of the constructed expression come from the tree by induction over the construction.
* C59: the documented operand table as an inductive relation; the constructors' checks are shown to decide it by cases on types, and lifted to texts with the composition theorems of C56.
* C60: definitions as Python objects (lists and tuples of argument types kept apart); equality is equality up to function names, and the hashed tuple is a function of that.
* C61: `Builtins` as a class with namespaces and generators; the table of builtins in the rest of the model is proved to be what the class computes.
* C62: the arguments of `Context(...)` to an environment; `example_accepted` ties types taken from an example to its evaluation.
* C63: `RegexGives`, a table read off the documentation, for whole rules; the engine (`re`) is an oracle.
* C64: two rules made from the same parts, related through `comprehension_iff` and the runs of `$map`/`$filter`.
* C65: the value of a constant part can be written as a literal and evaluates to itself (`Consts`), so folding an attribute is exact.
* C66: two tables (`Raises`, `Refused`) say which engine errors each construct of the language can raise; the theorem is an
  induction over the constructed nodes (`mo_eval`, for evaluation) and over the tree (`mo_build`, for construction, where constants
  are folded), with a predicate transformer for "all engine errors are in K"; totality of simple rules by a second induction.
* C67: `Raw.order` gives the possible orders as a regular language; the events of every computation of a constructed node are a
  sublist of a word of it (`Follows`, by induction over the tree); counting letters of the words gives the bound on lookups.
* C68: operators on outcomes (`BinOp.on`, `itemOn`, …) are the specification; the state between two operands differs only in
  groups and log, which a part without `$re_groups` does not read; folded constants by `Value.Literal` being closed under operators.
* C69: C68 turns laws of operators on values (C06, C07, C22-C24) into laws of rules; exchanging sides by induction over nested
  arrays; equality of sets from equality of members by an injection argument.
* C70: a relation between running with the variable in the outermost scope and running without it in the context that
  resolves the name, closed under all constructs (building and evaluating) that do not rebind the name.
* C85: `Shuffled a b` (values equal up to the order of the member lists of sets, at every depth; hashable values, so members of
  sets and keys, contain no sets) is kept by every operation on values (`SetOrder`); `fromValue` is invariant because
  `iterable_member_value_type` looks at its argument as a set of types, and errors of hashable members are all TypeError.
  `Tandem` relates computations started in threads whose variables are related and whose groups are equal (`Alongside`),
  closed under the monad's operations; `eval_tandem` is an induction over nodes, with the invariants of C74 (`Keeps`) for the
  well-formedness of intermediate values, and `ordered_notSet` (a partial correctness fact) for the iterables of
  comprehensions. `built_orderless` carries the syntactic condition from the text to the tree through constant folding.
  `evalAnyOrder` (`Model/Orders`) lists the sets in the value of every node in an order chosen by any function of the state and
  the value that keeps members (`Reorders`); `evalAny_tandem` is the same induction for two such orders, and `evalAny_id` says
  that the evaluation of `Model/Eval` is the one for the order of insertion, so `sets_in_any_order` compares it with every other.
  Calls (`SetOrderCalls`): the declared parameters of the builtin functions refuse sets (`validated_notSet`), and given no sets every
  one but `$map` and `$filter` keeps `Shuffled` (`callBuiltin_shuffled`); those two call back without that check (`map_sees_order`).
* C84: `Raw.Alpha` relates rules up to names of variables (innermost place resolved oldest-first, as the code does); a relation `Twin` on computations started in threads whose assignments have the same values and types under corresponding names (`Linked`), closed under the monad's operations and `withScope`, shown for evaluation (`eval_twin`) and construction (`build_twin`); renaming by an injective function is an instance (`renamed_alpha`); witnesses for both provisos.
* C83: a binary relation `Akin` on computations (equal in every state free of exchanged settings, with results and states free again), closed under the monad's operations, shown for evaluation (`eval_akin`) and construction (`build_akin`); witnesses for every exclusion (`timezone_matters`, `decimals_matter`, `regexes_matter`).
* C82: `suggestion_valid` (C43) at each place that raises, with the table of attribute names proved to be the domain of the attribute types (`attrNames_spec`); that errors of attribute functions are never about names (C58) shows that the error cannot come again.
* C81: induction on the lines with "no variables are left and the line counter is 1" as invariant; each reply by the independence theorems of C17. That a command is no rule: a text that is white space and then `#` lexes to nothing, one comment, or an illegal character (`lexFrom_hash`).
* C80: from C70 and C73: what the parts give for a member, as rules in the context in which `x` is that member, is the same for a member and for the value the variable gives for it (`same_for_value`; these differ for a date without time zone); then induction on the list of members. The static type of `[x for x in a if c]` is an array of the type of `x`, so that the outer variable has the same declaration (`Ranges.selected`).
* C79: a relation between types (`Vaguer k`: known less, up to k collections deep) and between nodes that every constructor check and every evaluation respects, by induction on the tree with two constructions side by side; folding does not see types. `Raw.Even` is the class of rules for which the checks are monotone; the `uneven_*` theorems show what happens outside.
* C78: C17's independence of the line counter and `parse_shift`; a history's line counter depends on the actions of `Rule` only.
* C77: what an evaluation asks is bounded by C76's order of questions, so that two resolvers that agree on it are exchangeable; paths by induction from their end, on texts without parentheses; the two readings of `resolve_attribute` are counted in the ghost history.
* C76: two monadic relations (an evaluation in a world against one in another world or in an environment) that every construct preserves, by induction on the tree; the order of questions as in C67; in a rule that asks for a name at most once the moment of a question is determined by the question, so a resolver without state can be read off the history.
* C75: the commands of a node are, up to order, its own node followed by those of its parts (`draw_perm`); nodes, edges and uniqueness by induction on the size of the rule; a rule is put together again from the labels at its positions (`assemble`). The model does not tell an absent condition of a comprehension from the literal `true` (which Python draws).
* C74: an invariant of evaluation (`Keeps`: the value is well-formed if the variables and groups of the thread are, and they stay so), by induction on the rule, with one lemma for each operation that makes collections; then the laws of C06/C69 without conditions on values. Assumed: the resolver gives well-formed data for well-formed objects and functions for well-formed arguments (Python guarantees that no `set` or `dict` is otherwise), and `TzOk`.
* C73: `call_of_rules` (C68) with the function resolved among the builtins, joined with the function-level theorems of C35/C47 and the laws of C69/C70.
* C72: evaluation repeated with the effect of nested evaluations on the thread's storage explicit (`Model/Reenter`); a relation between it and plain evaluation (same outcome, or variables cleared), preserved by every construct.
* C71: induction over the replacement relation with C68 and C70 as its steps; the context changes under a comprehension.
* C53: the shortest decimal that rounds to a float is found by search; below 4.5e15 units two decimals never share a float.
* C51, C52: inductive specification of what a literal spells; the codec steps composed character by character.

## 5. Findings: where the code contradicts the ideal property

For each of these either the negation of the ideal statement is proved on a concrete instance (named
theorem) and the property is proved under the hypothesis that excludes it, or the theorem states what
the code does.

1. Only the first operand of `+` is checked when it is text: `'x' + 1` with an untyped operand raises
   TypeError (C29, `escape_false`).
2. Constants are folded in the decimal context of the constructing thread, not in
   `Context.decimal_context`, including unary minus (C02, `thread_context_false`).
3. A folded regex match sets `$re_groups` at construction, not at evaluation (C01, C19:
   `folding_observable`, `re_groups_of_constant_match_false`).
4. The variable of an outer comprehension shadows the same name of an inner one (C16,
   `scoping_not_lexical`).
5. `x.y` inside a comprehension over a variable `y` falls back to that variable (C45,
   `attribute_captures_variable`); in a folded node the UNDEFINED sentinel leaks.
6. `v.ends_with("")` is False unless `v` is empty (C34, `ends_with_empty`).
7. `$range(a, 0)` is `$range(a)`, `$range(a, b, 0)` is `$range(a, b)`, `$random(0)` is `$random()` (C35,
   `range_zero_stop`, `range_zero_step`).
8. The null check of a MAPPING symbol with non-nullable values looks at the keys, and the key types
   are only checked for compatibility (C09, `mapping_symbol_unchecked`).
9. A symbol of type ARRAY(FLOAT) rejects the empty array and arrays of nulls only (C09,
   `empty_array_rejected`).
10. `inf - inf`, ordering with NaN, dates out of range, `x[0]` on a number, `1 in null`, unhashable
    members and keys, functions returning foreign objects, `("9"*400).to_int` raise exceptions that are
    no EngineErrors (C29, C31; `escape_false`, `is_valid_false`).
11. BYTES and FUNCTION operands of `==` are rejected at construction: `b"a" == b"a"` is no valid rule.
12. `==` of mappings is order sensitive and not transitive when the data contains plain dicts (C06:
    the laws are proved for the values the engine makes).
13. `true in [1]` and `[true] == [1]` although `true == 1` is false (C22, `true_in_numbers`).
14. Members of Python sets are not coerced; naive datetimes inside arrays are not localised (C27,
    `array_members_stay_naive`; C50).
15. `//` truncates and `%` has the sign of the dividend (C25); `inf / 0` is `inf`; overflow in `+` and `-`
    escapes as `decimal.Overflow`, in `*` and `/` it is an EvaluationError.
16. `$parse_float("x")` raises FunctionCallError, not FloatSyntaxError.
17. `"info".to_flt` raises `decimal.InvalidOperation`, `"0123".to_flt` SyntaxError, `"-5".to_flt` is nan
    (C53), so `x.to_str.to_flt` loses negative numbers (C54, `negative_to_str_to_flt`); more than 4300 digits raise
    SyntaxError.
18. `t"PT"` is the duration zero; a duration out of range raises OverflowError at construction (C39).
19. The lexer's line counter is never reset: the line reported by RuleSyntaxError depends on the rules
    parsed before (C48, `error_line_depends_on_history`).
20. Unused branches are still built: `true ? 1 : 1/0` and `true or (1/0)` cannot be constructed (C03,
    `construction_evaluates_constants`).
21. `m&[k]` with a statically impossible key is folded to null without evaluating `m` (C01,
    `folding_observable`).
22. The default value used for an attribute is not checked against the attribute's type, and
    `{"length": …}.length` falls through to the resolver when a member has no type (C08,
    `type_soundness_false`).
24. `{1: 2}.foo` raises TypeError, because the suggestion matches a regex against the key 1 (C29).
25. `b"a".to_set` has Python ints as members when it is not folded, Decimals when it is (C01,
    `folding_observable`).
26. A Decimal of at least 2^1024 − 2^970 is not a "real number" (`math.isfinite` converts it to a float);
    the theorems on whole numbers carry this bound.
28. `coerce_value` can merge mapping keys, which changes the data type (C11, `coerce_type_false`).
29. The documentation (attributes.rst) says builtin attributes are tried after the resolver fails; the
    code tries them first (C45 states the order in the code).
30. Datetimes of different zones in a DST gap or fold are neither `<`, `==` nor `>`, and differences
    across zones do not add back (C07, C26; `datetime_diff_zones_false`).
31. Removing type hints can make a rule invalid: `[1] < [x]` (C46, `untyping_can_invalidate`).
32. The result of a user function is only checked for compatibility with the declared type (C08).
33. `suggest_symbol` accepts names with a trailing newline (C43, `suggestion_newline`).
34. Re-entrant evaluation resets the outer evaluation: a comprehension around it raises IndexError, `$re_groups` is
    lost (C72: `nested_in_comprehension`, `nested_call_in_comprehension`, `nested_replaces_groups`).
35. `not in` binds as `not` on its left: `a & b not in c` is `(a & b) not in c`, while `a & b in c` is
    `a & (b in c)` (C40, `not_in_precedence`).
36. `&[` after any non-blank character opens an array literal: `(&[1])` is `([1])` (C40, C41).
37. A comment is accepted only at the end of the text (C41).
38. In a string literal a backslash before a character that is not printable ASCII corrupts that character:
    `"C:\été"` denotes `C:\xe9té` (C51, `Strings`; the encoded character `\xe9` follows the encoded
    backslash `\\`, and the replacement of `\\` by `\` pairs them wrongly).
39. Fractions of durations are computed in binary64: `t"PT80000000000000.999999S"` is one microsecond longer than it
    says, and `t"PT9000000000.000001S"` (285 years) is too (C39, `fraction_witness`; exact up to 50000 days).
40. `total_seconds` and `to_epoch` are rounded to a binary float: exact up to 142 years, not from 285 years on
    (C53, `total_seconds_inexact`).
41. `from_type(typing.Optional[int])` raises TypeError and `from_type(list[()])` IndexError, not the documented
    ValueError (C55, the example after `hint_symbol_members`).
42. `Context.symbols` also contains the names of `$` builtins and of comprehension variables used in the rule, which
    are not taken from the thing (C58, `symbols_exact`, `names_witness`).
43. FLOAT values have an attribute `to_int`, accepted by the engine and typed FLOAT, that attributes.rst does not list.
44. A FUNCTION type whose argument types are given as a list (which the constructor accepts) cannot be hashed, and is not
    equal to the same type given as a tuple (C60, `hash_witness`).
45. A `BuiltinValueGenerator` is called twice for each access to its symbol, because `in` asks for the item (C61,
    `builtins_known`); a KeyError it raises is reported as an unknown symbol.
46. Replacing a builtin's value keeps the default's type: `$pi` replaced by a text is still typed FLOAT (C61, `builtins_sample`).
47. `$map(f, a)` leaves naive datetimes naive, `[f(x) for x in a]` attaches the default timezone (C64, `map_naive_differs`).
48. `re.compile` raises OverflowError for `x{4294967296}`; only `re.error` becomes RegexSyntaxError (C29, C31, `is_valid_false`).
49. `isoparse` raises OverflowError for `9999-12-31T24:00`; only ValueError becomes DatetimeSyntaxError (C31, `is_valid_false`).
50. `1 << 20000` raises ValueError: the int is converted through `repr`, which CPython limits to 4300 digits (C23,
    `bitwise_too_long`), and so do `(1e5000).floor` and `.to_flt` of a long hexadecimal text (C53, `floor_ceiling_too_long`).
51. In a mapping literal the value of a repeated key is evaluated in the place of the first one: `{a: x, b: y, c: z}` with a = c asks
    for z before y; and `a in b` asks for b first (C67, `order_witness`).
52. Diagrams do not show the keys and values of mapping literals (`MappingExpression` inherits the method of literals), nor whether an
    access is safe or a name is a builtin, and the comment has a node but no edge (C75, examples in `Props/Graph`).
53. A name or `$now` written twice in a rule is looked up twice; with a resolver (or clock) whose answers change during an evaluation
    `a == a` is false and `a == 'old' ? a : 'other'` can give what the condition excluded (C76, `changing_witness`).
54. With `resolve_attribute` the items of a mapping cannot be reached with a dot (`data.k` is an AttributeResolutionError), although the
    grammar and constructor allow it; Python attributes of any value can (C77, `objects_witness`).
55. `resolve_attribute` reads an attribute twice (`hasattr`, `getattr`); the second reading counts, and if it fails the evaluation raises
    AttributeError, not an EngineError (C77, `second_reading`, `fading_witness`).
56. `DebugRule.is_valid(text)` raises AttributeError for every text: the class attribute `parser` is None (C78, `debug_is_valid`).
57. Declaring types can make a rule acceptable that is refused without: `[x] < [1]` with `x` a FLOAT (without, ARRAY(UNDEFINED) differs from ARRAY(FLOAT)); `[[x], [y]][1] + 1` and `(z ? {x} : {y}) + 1` with `x` a FLOAT and `y` a STRING (types that differ are merged to UNDEFINED, unknown ones are equal and stay) (C79, `uneven_comparison`, `uneven_members`, `uneven_branches`).
58. `m&[true]` with `m` a MAPPING with STRING keys is null without looking for `m`; when nothing is known of `m` it raises SymbolResolutionError for a missing `m` (C79, `uneven_safe_item`).
59. `[v for v in [[[x] for a in [1]] for c in [1]]]` raises SymbolTypeError for its own variable `v` unless the type of `x` is declared: the inferred type ARRAY(ARRAY(UNDEFINED)) is compared with the value's member type by equality (C79, `uneven_variable`).
60. `true in [1]` is true but `$any([x == true for x in [1]])` is false: `in` compares as Python does, `==` of the rule language demands the same type (C80, `in_is_not_any`).
61. In the debug REPL any word but `false` turns debugging on, also `#! debug = 0` and `off`, and what follows the word is not read (C81, `debug_commands`).
62. Suggestions are filtered by the regular expression of symbols, not by what a rule can ask for: reserved words (`if`, `in`, ...) and keys that start with `$` are suggested, and following the advice gives a RuleSyntaxError or the builtin; and something is suggested however unlike the name it is (C82, `unhelpful_advice`).
63. What a comprehension through a set, `to_ary` of a set, `$map` or `$filter` with `$sum`, `$min` or `$max` over sets, or a function of the program that is given a set gives depends on the order in which Python lists the members, so on the process's hash seed; nothing else in the language does, `starts_with` and `ends_with` aside, which the theorems leave out (C85, `sets_without_order_text`, `order_of_sets_seen`, `map_sees_order`). The builtin functions are declared with ARRAY, FLOAT, STRING, ... parameters and refuse sets as arguments.

## 6. Testing the theorems against wrong programs

`seeded/LOG.jsonl` has one line per mutant of the model.  `scripts/mutate2.py` applies a mutant to a
scratch copy, elaborates every module between the mutated one and the theorems that MANIFEST lists for
the claim, continuing after errors, and asks for each of these theorems whether its proof (with all
lemmas it uses) is still complete.  A mutant counts as killed only if one of the claim's own theorems is
broken.
