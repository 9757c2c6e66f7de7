{"id": "C01", "title": "Parse-time constant folding never changes the value of a rule", "statement": "If Rule(text) is constructed and rule.evaluate(thing) returns a value v, then interpreting the same syntax tree directly, without replacing any constant sub-expression by a literal and without any static type information, also returns v.", "quantifier": "every syntax tree, every context (resolver, type resolver, default value, builtins), every thing", "why_tests_cant": "folding interacts with every node type at every nesting depth; tests can only sample a few trees", "anchors": ["lib/rule_engine/ast.py: ASTNodeBase.build, *.reduce, _is_reduced, LiteralExpressionBase.from_value", "lib/rule_engine/parser/base.py: ParserBase.parse"]}
{"id": "C02", "title": "Evaluation uses the decimal context of the Context object, not of the calling thread", "statement": "The value of rule.evaluate(thing) does not depend on the decimal context that is current in the thread that constructs or evaluates the rule; FLOAT arithmetic is performed with Context.decimal_context.", "quantifier": "every rule, thing and pair of thread decimal contexts", "why_tests_cant": "depends on every combination of thread context, rule context and operation", "anchors": ["lib/rule_engine/engine.py: Rule.evaluate, Rule.__init__, Context.__init__ (decimal_context)"]}
{"id": "C03", "title": "Logical and ternary operators evaluate only the operands they need", "statement": "In `l and r` the right side is evaluated iff l is truthy, in `l or r` iff l is falsy, and `c ? t : f` evaluates exactly one of t and f; a skipped operand causes no resolver call, no function call, no exception and no change of $re_groups.", "quantifier": "every operand expression (including raising ones), thing and state", "why_tests_cant": "the skipped operand ranges over all expressions", "anchors": ["lib/rule_engine/ast.py: LogicExpression._op_and, LogicExpression._op_or, TernaryExpression.evaluate"]}
{"id": "C04", "title": "Logical, comparison, membership and `not` expressions return BOOLEAN values", "statement": "Whenever evaluating an `and`, `or`, `not`, `==`, `!=`, `<`, `<=`, `>`, `>=`, `=~`, `=~~`, `!~`, `!~~` or `in` expression returns, it returns True or False, and Rule.matches returns the truth value of Rule.evaluate.", "quantifier": "every operand expression and thing", "why_tests_cant": "quantifies over all operands", "anchors": ["lib/rule_engine/ast.py: LogicExpression, ComparisonExpression, ArithmeticComparisonExpression, FuzzyComparisonExpression, ContainsExpression, UnaryExpression", "lib/rule_engine/engine.py: Rule.matches"]}
{"id": "C05", "title": "!= is the exact negation of == and == never raises on evaluated operands", "statement": "For all operand expressions, if both operands evaluate then `a == b` and `a != b` both return, and return opposite booleans; operands of different data types are unequal.", "quantifier": "every pair of values", "why_tests_cant": "the value space is infinite and nested", "anchors": ["lib/rule_engine/ast.py: ComparisonExpression._op_eq, ComparisonExpression._op_ne"]}
{"id": "C06", "title": "== is symmetric and reflexive (except for NaN)", "statement": "`a == b` and `b == a` return the same result for all values, and `a == a` is true for every value that contains no NaN.", "quantifier": "every pair of (nested) values", "why_tests_cant": "nested arrays, sets and mappings of any depth", "anchors": ["lib/rule_engine/ast.py: ComparisonExpression._op_eq", "lib/rule_engine/types.py: coerce_value"]}
{"id": "C07", "title": "Ordering comparisons are coherent", "statement": "For two values of the same ordered type (BOOLEAN, FLOAT without NaN, STRING, DATETIME, TIMEDELTA, and arrays of these of any nesting, compared lexicographically): `a < b` iff `b > a`; `a <= b` iff not `b < a`; exactly one of `a < b`, `a == b`, `a > b`. Operands of different data types raise EvaluationError.", "quantifier": "every pair and triple of values of an ordered type, arrays of any length and depth", "why_tests_cant": "unbounded arrays", "anchors": ["lib/rule_engine/ast.py: ArithmeticComparisonExpression.__op_arithmetic_values, __op_arithmetic_arrays"]}
{"id": "C08", "title": "Type soundness of the static result type", "statement": "If a rule was accepted at construction with static type T for its expression and evaluation returns a value v, then v is null or a value of type T (recursively for member types).", "quantifier": "every rule, every thing, every typed context", "why_tests_cant": "any nesting of expressions", "anchors": ["lib/rule_engine/ast.py: every __init__ computing result_type, SymbolExpression.evaluate", "lib/rule_engine/engine.py: _AttributeResolver.resolve_type"]}
{"id": "C09", "title": "A symbol with a declared type never yields a value of another type", "statement": "If the type resolver declares type T for a symbol and the symbol evaluates to v, then v is null or matches T: scalars have exactly type T, and for compound types with a declared member type every member is null or has exactly the declared member type, with null members only if the declaration is nullable; otherwise SymbolTypeError is raised.", "quantifier": "every declared type and every resolved value", "why_tests_cant": "values and types nest without bound", "anchors": ["lib/rule_engine/ast.py: SymbolExpression.evaluate"]}
{"id": "C10", "title": "Data type compatibility and equality laws", "statement": "DataType equality is an equivalence relation; DataType.is_compatible is reflexive and symmetric, true whenever one side is UNDEFINED, implied by equality, and false between types of different kinds.", "quantifier": "every pair of data type definitions, any nesting", "why_tests_cant": "recursive types of any depth", "anchors": ["lib/rule_engine/types.py: DataType.is_compatible, _DataTypeDef.__eq__, _CollectionDataTypeDef.__eq__, _MappingDataTypeDef.__eq__, _FunctionDataTypeDef.__eq__"]}
{"id": "C11", "title": "coerce_value is idempotent, normalises, and preserves the data type", "statement": "For every Python value, coerce_value(coerce_value(v)) == coerce_value(v) structurally, the result contains no int/float/list/range/date/dict outside of sets, and DataType.from_value(coerce_value(v)) equals DataType.from_value(v) whenever the latter is defined.", "quantifier": "every Python value of any nesting", "why_tests_cant": "recursion over unbounded nested values", "anchors": ["lib/rule_engine/types.py: coerce_value, _to_decimal, DataType.from_value"]}
{"id": "C12", "title": "DataType.from_value is total on supported values and precise", "statement": "DataType.from_value never returns UNDEFINED at the top level; it reports a member type other than UNDEFINED only if every member is null or has exactly that type.", "quantifier": "every Python value", "why_tests_cant": "unbounded nesting", "anchors": ["lib/rule_engine/types.py: DataType.from_value, iterable_member_value_type"]}
{"id": "C13", "title": "Default value substitution", "statement": "With no default value a symbol that the resolver cannot resolve raises SymbolResolutionError; with a default value it evaluates to the (coerced) default. If evaluation without a default value returns v, then evaluation with any default value also returns v.", "quantifier": "every rule, thing and default value", "why_tests_cant": "ranges over whole rules", "anchors": ["lib/rule_engine/ast.py: SymbolExpression.evaluate, GetAttributeExpression.evaluate", "lib/rule_engine/engine.py: Context.resolve, resolve_item"]}
{"id": "C14", "title": "Context.symbols covers every name looked up on the thing", "statement": "After construction, every symbol name that any later evaluation passes to the resolver for the evaluated thing is contained in Context.symbols.", "quantifier": "every rule, thing and evaluation", "why_tests_cant": "ranges over whole rules and things", "anchors": ["lib/rule_engine/ast.py: SymbolExpression.__init__", "lib/rule_engine/engine.py: Context.symbols, Context.resolve"]}
{"id": "C15", "title": "Array comprehension is an ordered filter-map and its variable does not leak", "statement": "`[r for x in it if c]` returns, in order, the value of r for exactly the members for which c is truthy, with x bound to the member; afterwards, whether it returned or raised, the set of assigned variables is what it was before.", "quantifier": "every result, condition and iterable expression, iterables of any length", "why_tests_cant": "unbounded iterables and nested comprehensions, error paths", "anchors": ["lib/rule_engine/ast.py: ComprehensionExpression.evaluate", "lib/rule_engine/engine.py: Context.assignments"]}
{"id": "C16", "title": "Nested comprehension variables are lexically scoped", "statement": "Within nested comprehensions a name refers to the variable of the innermost enclosing comprehension that binds it.", "quantifier": "every nesting of comprehensions", "why_tests_cant": "unbounded nesting", "anchors": ["lib/rule_engine/engine.py: Context.resolve, Context.resolve_type, Context.assignments"]}
{"id": "C17", "title": "An evaluation is independent of earlier evaluations in the same thread", "statement": "rule.evaluate(thing) returns or raises the same whatever rules sharing the Context were evaluated before in this thread, including evaluations that raised.", "quantifier": "every history of evaluations", "why_tests_cant": "histories are unbounded", "anchors": ["lib/rule_engine/engine.py: Rule.evaluate, _ThreadLocalStorage.reset"]}
{"id": "C18", "title": "Concurrent evaluations sharing a Context do not affect each other", "statement": "For any number of threads evaluating rules that share one Context, under every interleaving each evaluation returns or raises exactly what it would alone.", "quantifier": "every schedule and every set of rules", "why_tests_cant": "schedules cannot be enumerated", "anchors": ["lib/rule_engine/engine.py: _ThreadLocalStorage, Context._tls, _tls_getter"]}
{"id": "C19", "title": "$re_groups reflects the last successful regex match of this evaluation", "statement": "At the start of an evaluation $re_groups is null; after a regex operator matches, it is the tuple of groups of that match, and it is unchanged by failed matches and all other operations.", "quantifier": "every expression and regex engine", "why_tests_cant": "order of evaluation over all expressions", "anchors": ["lib/rule_engine/ast.py: FuzzyComparisonExpression.__op_regex", "lib/rule_engine/engine.py: _tls_getter, Rule.evaluate"]}
{"id": "C20", "title": "Safe navigation", "statement": "`x&.name`, `x&[i]` and `x&[a:b]` evaluate to null when x is null; `x&[i]` evaluates to null instead of raising LookupError; and whenever the unsafe form returns v the safe form returns v.", "quantifier": "every container, index and key expression", "why_tests_cant": "all containers and keys", "anchors": ["lib/rule_engine/ast.py: GetAttributeExpression, GetItemExpression, GetSliceExpression"]}
{"id": "C21", "title": "Indexing and slicing follow sequence semantics", "statement": "For an array, string or bytes value s of length n and integer i, s[i] is element i if 0 <= i < n, element n+i if -n <= i < 0, and LookupError otherwise; s[:k] + s[k:] == s for every integer k; non-integer indexes raise EvaluationError.", "quantifier": "every sequence and index", "why_tests_cant": "unbounded lengths", "anchors": ["lib/rule_engine/ast.py: GetItemExpression.evaluate, GetSliceExpression.evaluate, _assert_is_integer_number"]}
{"id": "C22", "title": "Membership", "statement": "`m in c` is true iff c (array/set members, mapping keys) holds an element equal to m, or m is a contiguous part of the string/bytes c; `m not in c` is its negation.", "quantifier": "every container and member", "why_tests_cant": "unbounded containers", "anchors": ["lib/rule_engine/ast.py: ContainsExpression.evaluate", "lib/rule_engine/parser/__init__.py: p_expression_contains"]}
{"id": "C23", "title": "Bitwise operators are exact on natural numbers and are set algebra on sets", "statement": "For natural numbers below 2^1024-2^970 (the range in which a Decimal converts to a finite double, as the operators' operand check requires) &, |, ^, <<, >> return the exact mathematical result independent of decimal precision (a result of << with more digits than sys.get_int_max_str_digits() raises ValueError); any other number operand raises EvaluationError; on sets &, |, ^ are intersection, union and symmetric difference.", "quantifier": "every pair of naturals / sets", "why_tests_cant": "unbounded integers", "anchors": ["lib/rule_engine/ast.py: BitwiseExpression._op_bitwise*, BitwiseShiftExpression"]}
{"id": "C24", "title": "Decimal addition, subtraction and multiplication are exact when representable", "statement": "If the exact result of +, - or * on two finite FLOAT values has at most `precision` significant digits (and is in exponent range) the operator returns exactly that value; + and * are commutative; otherwise the result differs from the exact one by less than one unit in the last place.", "quantifier": "every pair of finite decimals and every precision", "why_tests_cant": "unbounded coefficients and exponents", "anchors": ["lib/rule_engine/ast.py: AddExpression._op_add, SubtractExpression._op_sub, ArithmeticExpression", "lib/rule_engine/types.py: _to_decimal"]}
{"id": "C25", "title": "Division by zero and quotient/remainder laws", "statement": "For finite x, x / 0, x // 0 and x % 0 raise EvaluationError; otherwise for finite a and b, whenever a // b returns q, q is the integer quotient truncated toward zero and a % b is the remainder with a = q*b + r, |r| < |b|, r having the sign of a.", "quantifier": "every pair of finite decimals", "why_tests_cant": "unbounded values", "anchors": ["lib/rule_engine/ast.py: ArithmeticExpression.__op_arithmetic"]}
{"id": "C26", "title": "Datetime and timedelta arithmetic", "statement": "(d + t) - t == d, t1 + t2 == t2 + t1, -(-t) == t, and d + t == t + d, whenever the intermediate results are in range; (d1 - d2) + d2 == d1 for datetimes in the same time zone, and for different zones when the UTC offset of d2's zone is the same at d1 and d2; the type of the result is DATETIME or TIMEDELTA as documented.", "quantifier": "every datetime/timedelta pair in range", "why_tests_cant": "unbounded", "anchors": ["lib/rule_engine/ast.py: AddExpression._op_add, SubtractExpression._op_sub, UnaryExpression"]}
{"id": "C27", "title": "Datetimes obtained from symbols, attributes, items and function results carry a timezone", "statement": "A DATETIME value produced by a symbol, attribute, item lookup or function call is timezone-aware: naive values get Context.default_timezone and aware ones are unchanged.", "quantifier": "every expression of these kinds and every thing", "why_tests_cant": "all value sources", "anchors": ["lib/rule_engine/ast.py: ExpressionBase._new_value"]}
{"id": "C28", "title": "Function calls are checked before and after", "statement": "A typed function is invoked only with an allowed number of arguments whose types are compatible with its declared argument types; whatever the function raises surfaces as FunctionCallError; a returned value incompatible with the declared return type raises FunctionCallError.", "quantifier": "every function type, argument list and function behaviour", "why_tests_cant": "functions are arbitrary", "anchors": ["lib/rule_engine/ast.py: FunctionCallExpression._validate_function, FunctionCallExpression.evaluate"]}
{"id": "C29", "title": "Only EngineError exceptions escape evaluation", "statement": "If resolver and functions raise only documented errors, Rule.evaluate raises only errors.EngineError subclasses.", "quantifier": "every rule and thing", "why_tests_cant": "all operand combinations", "anchors": ["lib/rule_engine/ast.py: all evaluate methods, _assert_is_bytes, _assert_is_string", "lib/rule_engine/errors.py: EngineError"]}
{"id": "C30", "title": "Rule.filter yields exactly the matching things in order", "statement": "filter(things) yields, in order and with multiplicity, exactly those things for which matches(thing) is True; if matches raises for a thing, everything before it has been yielded and the exception propagates.", "quantifier": "every iterable of things and every rule", "why_tests_cant": "unbounded iterables", "anchors": ["lib/rule_engine/engine.py: Rule.filter, Rule.matches"]}
{"id": "C31", "title": "Rule.is_valid agrees with construction", "statement": "Rule.is_valid(text, context) returns True iff Rule(text, context) can be constructed and returns False otherwise.", "quantifier": "every rule and context", "why_tests_cant": "all rule texts", "anchors": ["lib/rule_engine/engine.py: Rule.is_valid, Rule.__init__"]}
{"id": "C32", "title": "Mapping literals: last duplicate key wins and only its value is evaluated", "statement": "A mapping literal evaluates to a mapping whose keys are the distinct evaluated keys in order of first occurrence, each with the value of the last entry with that key; value expressions of overridden entries are not evaluated; SET and MAPPING keys raise EngineError.", "quantifier": "every list of key/value expressions", "why_tests_cant": "unbounded member lists", "anchors": ["lib/rule_engine/ast.py: MappingExpression.evaluate"]}
{"id": "C33", "title": "A dictionary type resolver makes unknown symbols a construction error", "statement": "With a dictionary type_resolver, every rule text that references a symbol that is neither in the dictionary nor a comprehension variable in scope fails construction with SymbolResolutionError (or an earlier error), even if the reference is in a branch that would never be evaluated.", "quantifier": "every rule tree and dictionary", "why_tests_cant": "all positions of the reference", "anchors": ["lib/rule_engine/engine.py: type_resolver_from_dict, _type_resolver, Context.resolve_type", "lib/rule_engine/ast.py: SymbolExpression.__init__"]}
{"id": "C34", "title": "starts_with / ends_with", "statement": "v.starts_with(p) is true iff v = p + rest for some rest, and v.ends_with(s) is true iff v = rest + s for some rest.", "quantifier": "every array/string/bytes value and argument", "why_tests_cant": "unbounded lengths", "anchors": ["lib/rule_engine/engine.py: _AttributeResolver._value_starts_with, _value_ends_with"]}
{"id": "C35", "title": "$range and $split", "statement": "$range(a), $range(a,b), $range(a,b,s) return exactly the documented arithmetic progression; $split(s, sep) returns parts that joined by sep give s and contain no sep; with maxsplit k at most k+1 parts are returned.", "quantifier": "every argument", "why_tests_cant": "unbounded", "anchors": ["lib/rule_engine/builtins.py: _builtin_range, _builtins_split"]}
{"id": "C36", "title": "hex and base64 transcoding round-trips", "statement": "b.decode('hex').encode('hex') == b and b.decode('base64').encode('base64') == b for every BYTES value b.", "quantifier": "every byte string", "why_tests_cant": "unbounded lengths", "anchors": ["lib/rule_engine/engine.py: _AttributeResolver._bytes_decode, _string_encode"]}
{"id": "C37", "title": "Timedelta and datetime attributes decompose the value", "statement": "For a TIMEDELTA t, t.days*86400*10^6 + t.seconds*10^6 + t.microseconds is its length in microseconds with 0 <= seconds < 86400 and 0 <= microseconds < 10^6; for a DATETIME, hour/minute/second/microsecond recompose the time of day, .date is midnight of the same day, and year/month/day are its date in the Gregorian calendar.", "quantifier": "every timedelta / datetime", "why_tests_cant": "all values", "anchors": ["lib/rule_engine/engine.py: _AttributeResolver.timedelta_*, datetime_*"]}
{"id": "C38", "title": "Number literals denote their exact value", "statement": "A decimal FLOAT literal denotes exactly the rational it spells (no binary rounding), 0b/0o/0x literals the corresponding integer; decimal literals with a leading zero followed by a digit are rejected.", "quantifier": "every literal text", "why_tests_cant": "unbounded digit strings", "anchors": ["lib/rule_engine/parser/utilities.py: parse_float", "lib/rule_engine/parser/__init__.py: t_FLOAT"]}
{"id": "C39", "title": "Timedelta literals denote the sum of their components", "statement": "P[nW][nD][T[nH][nM][nS]], where a number may have a fraction, denotes the sum of the components: exactly when no component has a fraction, or when the sum is a whole number of microseconds and at most 50000 days; otherwise up to the rounding of binary64, 0.501 + sum/2^53 microseconds. A sum out of the range of a timedelta raises OverflowError. Anything else raises TimedeltaSyntaxError.", "quantifier": "every literal text", "why_tests_cant": "unbounded", "anchors": ["lib/rule_engine/parser/utilities.py: parse_timedelta, timedelta_regex"]}
{"id": "C40", "title": "Operator precedence and associativity", "statement": "Parsing groups operators by the documented precedence table: any syntax tree printed with the parentheses the table requires parses back to that tree.", "quantifier": "every syntax tree", "why_tests_cant": "trees of any size", "anchors": ["lib/rule_engine/parser/__init__.py: Parser.precedence, p_expression_*", "lib/rule_engine/parser/parsetab.py"]}
{"id": "C41", "title": "Whitespace and comments are insignificant", "statement": "Inserting blanks between tokens (other than around the attribute dot and the safe bracket) or a trailing comment does not change the parsed rule.", "quantifier": "every token sequence", "why_tests_cant": "all texts", "anchors": ["lib/rule_engine/parser/__init__.py: t_ignore, t_newline, t_COMMENT"]}
{"id": "C42", "title": "Concurrent rule construction binds each rule to its own context", "statement": "When several threads construct rules at the same time through the shared parser, every node of each rule refers to the Context given to that construction, and at most one thread is parsing at a time.", "quantifier": "every interleaving", "why_tests_cant": "schedules", "anchors": ["lib/rule_engine/parser/base.py: ParserBase.parse, ParserBase.__mutex"]}
{"id": "C43", "title": "Suggestions are valid candidates", "statement": "suggest_symbol(word, options) on string options never fails, returns None iff no option is a valid symbol name (a trailing newline is tolerated), and otherwise returns one of the valid options for which 1 - similarity is smallest; the similarity is 1 for equal words and always in [0, 1].", "quantifier": "every word and option list", "why_tests_cant": "unbounded strings", "anchors": ["lib/rule_engine/suggestions.py: jaro_distance, jaro_winkler_distance, suggest_symbol"]}
{"id": "C44", "title": "The $ scope and the thing's names are separate", "statement": "`$name` is resolved only from the builtins and never calls the resolver; a plain name never resolves to a builtin.", "quantifier": "every name, thing and context", "why_tests_cant": "all names", "anchors": ["lib/rule_engine/engine.py: Context.resolve, Context.resolve_type", "lib/rule_engine/parser/__init__.py: p_expression_symbol"]}
{"id": "C45", "title": "Attribute access resolves type attributes first, then members of the object", "statement": "x.name evaluates to the builtin attribute if the type of x's value has one called name, otherwise to what the resolver returns for (value of x, name), otherwise the default value or AttributeResolutionError; it does not depend on unrelated variables.", "quantifier": "every object expression and name", "why_tests_cant": "all objects", "anchors": ["lib/rule_engine/ast.py: GetAttributeExpression.evaluate", "lib/rule_engine/engine.py: _AttributeResolver, Context.resolve"]}
{"id": "C46", "title": "Type hints never change a result", "statement": "If a rule evaluates to v under a typed context then it evaluates to v under the same context with all symbol types UNDEFINED.", "quantifier": "every rule, typing and thing", "why_tests_cant": "all rules and typings", "anchors": ["lib/rule_engine/ast.py: SymbolExpression", "lib/rule_engine/engine.py: Context.resolve_type"]}
{"id": "C47", "title": "Aggregate builtins", "statement": "$any/$all are the disjunction/conjunction of truthiness, $sum([]) is 0 and $sum adds from the left, $min/$max of a non-empty array of numbers other than NaN return a member that is a lower/upper bound (and raise FunctionCallError on the empty array), $map and $filter preserve order and $filter returns a sub-sequence.", "quantifier": "every array", "why_tests_cant": "unbounded arrays", "anchors": ["lib/rule_engine/builtins.py: Builtins.from_defaults, _builtin_map, _builtin_filter"]}
{"id": "C48", "title": "Reported error positions do not depend on earlier rules", "statement": "The line number reported by RuleSyntaxError for a text is the line within that text, regardless of rules parsed before.", "quantifier": "every history of parsed texts", "why_tests_cant": "histories", "anchors": ["lib/rule_engine/parser/__init__.py: t_newline", "lib/rule_engine/parser/base.py: ParserBase.parse", "lib/rule_engine/errors.py: RuleSyntaxError"]}
{"id": "C49", "title": "Every text parses or is refused with a syntax error", "statement": "Parsing any text terminates, and gives a rule tree or one of the documented syntax errors (RuleSyntaxError, StringSyntaxError, BytesSyntaxError); the parser never fails internally and never loops.", "quantifier": "every text", "why_tests_cant": "all strings of any length", "anchors": ["lib/rule_engine/parser/__init__.py: Parser, t_error, p_error", "lib/rule_engine/parser/base.py: ParserBase.parse", "lib/rule_engine/parser/parsetab.py"]}
{"id": "C50", "title": "Results are normalised", "statement": "Whatever Python values the resolver and user functions return, every value a rule evaluates to is normalised: numbers are Decimals, arrays are tuples, mappings are OrderedDicts and dates are datetimes, at every depth (members of Python sets excepted, which are passed through as they are).", "quantifier": "every rule, thing, resolver and set of functions", "why_tests_cant": "all rules, nestings and resolver results", "anchors": ["lib/rule_engine/types.py: coerce_value", "lib/rule_engine/ast.py: _new_value, SymbolExpression.evaluate, FunctionCallExpression.evaluate, GetItemExpression.evaluate"]}
{"id": "C51", "title": "String literals denote the string they spell", "statement": "Every character other than a backslash between the quotes of a string literal, printable or not, ASCII or not, denotes itself; \\n, \\t, \\\\, \\\", \\', \\a, \\b, \\f, \\r, \\v, \\xhh, \\uhhhh, \\Uhhhhhhhh and octal escapes denote the character with that code, and a backslash before any other printable ASCII character denotes itself. \\x, \\u or \\U without enough hexadecimal digits, or beyond the last code point, raises StringSyntaxError. Every string can be written as a literal.", "quantifier": "every string literal of any length, either quote, with or without the s prefix, and every string", "why_tests_cant": "all Unicode strings and all combinations of escapes", "anchors": ["lib/rule_engine/parser/__init__.py: t_STRING, p_expression_string"]}
{"id": "C52", "title": "Bytes literals denote the bytes they spell", "statement": "An ASCII character other than a backslash in a bytes literal denotes its code, the escapes of Python's bytes literals denote their byte, and a backslash before any other character denotes itself; a bytes literal with any other character (not ASCII, or NUL) or a malformed \\x escape raises BytesSyntaxError. Every bytes value can be written as a literal.", "quantifier": "every bytes literal of any length and every bytes value", "why_tests_cant": "all texts and all combinations of escapes", "anchors": ["lib/rule_engine/parser/__init__.py: t_BYTES, p_expression_bytes"]}
{"id": "C53", "title": "Numbers read off durations, dates, numbers and texts are exact", "statement": "t.total_seconds, d.to_epoch (of a datetime with a time zone) and d.millisecond are exactly the number of seconds or milliseconds they name, for 4.5e15 microseconds (142 years) to either side of zero; x.floor and x.ceiling are exact for every finite number, unless the result has more digits than sys.get_int_max_str_digits() (ValueError), and keep the infinities and NaN, x.is_nan is true for NaN only, and x.to_int is x for a whole number in the range of floats and an EvaluationError otherwise. \"text\".to_flt is exactly the number the text spells (decimal up to 4.5e15 units of its last place, digits only, binary, octal, hexadecimal up to sys.get_int_max_str_digits() digits; blanks around it ignored), SyntaxError for digits with a needless leading zero, and NaN for any other text that does not begin with inf or -inf; \"text\".to_int is never anything but \"text\".to_flt.", "quantifier": "every timedelta, datetime, number and text, within the stated bounds", "why_tests_cant": "binary floats are behind it: an error would show on a few of 10^15 values", "anchors": ["lib/rule_engine/engine.py: _AttributeResolver.timedelta_total_seconds, datetime_to_epoch, datetime_millisecond, float_ceiling, float_floor, float_is_nan, string_to_flt, string_to_int", "lib/rule_engine/types.py: _to_decimal, coerce_value"]}
{"id": "C54", "title": "Numbers and literals survive being texts", "statement": "$parse_float(x.to_str) is x (same sign, digits and exponent) for every number, including the infinities and NaN, so different numbers have different texts; the text x.to_str of a number that is not negative, taken as a rule, evaluates to x; x.to_str.to_flt has the value of x for numbers that are not negative (up to 4.5e15 units of the last place, whole numbers up to sys.get_int_max_str_digits() digits), and is NaN for negative ones. $parse_float(s), $parse_timedelta(s) and $parse_datetime(s) give the value of the literals s, t\"s\" and d\"s\", and raise FunctionCallError where that literal is a syntax error or out of range.", "quantifier": "every number and every text", "why_tests_cant": "every combination of digits and exponent, on both sides of the switch to scientific notation", "anchors": ["lib/rule_engine/engine.py: _AttributeResolver.to_str, string_to_flt", "lib/rule_engine/builtins.py: Builtins.from_defaults", "lib/rule_engine/parser/utilities.py: parse_float, parse_timedelta, parse_datetime"]}
{"id": "C55", "title": "Data types made from type hints accept the values they annotate", "statement": "If DataType.from_type answers for a Python class or type hint, the answer is never UNDEFINED and is compatible with DataType.from_value of every value annotated correctly by that hint, at any nesting of collections. It answers exactly for the known classes, for collection hints whose member hints it answers for (dict keys neither sets nor mappings), and for bare hints; every other hint raises. A symbol declared with that type yields every such value unchanged, if the hint is a scalar, a collection without member types, or a collection of scalars and the value is not empty.", "quantifier": "every type hint of any nesting, every value it annotates", "why_tests_cant": "hints and values nest to any depth", "anchors": ["lib/rule_engine/types.py: DataType.from_type, DataType.from_value, DataType.is_compatible", "lib/rule_engine/ast.py: SymbolExpression.evaluate"]}
{"id": "C56", "title": "Rules compose as texts", "statement": "A text that Rule accepts (with no comment in it) keeps its meaning as a part of a larger text: in parentheses it can be the operand of every unary, binary and ternary operator, of `in` and `not in`, the object of an attribute, item, slice (with both, one or no bound) or call, and without parentheses the index, slice bound, argument, member of an array or set literal, key or value of a mapping literal, and result, iterable or condition of a comprehension; the larger text is accepted by the parser and means exactly that operation on the meanings of the parts. So a program may assemble rules from rules by pasting texts, and operator precedence never interferes.", "quantifier": "every accepted text, of any length, in each of these places", "why_tests_cant": "texts of unbounded nesting, every pair of contexts", "anchors": ["lib/rule_engine/parser/__init__.py: Parser (tokens, precedence, grammar actions)", "lib/rule_engine/parser/base.py: ParserBase.parse"]}
{"id": "C57", "title": "Laws of the boolean operators hold for whole rules", "statement": "For all texts a, b, c that are rules: `not ((a) and (b))` and `(not (a)) or (not (b))`, `not ((a) or (b))` and `(not (a)) and (not (b))`, the two groupings of `(a) and (b) and (c)` and of `or`, `(a) ? (b) : (c)` and `(not (a)) ? (c) : (b)`, and `not (not (a))` and `(a) ? (true) : (false)` agree: whenever Rule accepts both, evaluating them returns the same value or raises the same exception for every thing, and calls the resolver and functions in the same order with the same arguments. `(a) != (b)` is the negation of `(a) == (b)`, `(a) !~ (b)` of `(a) =~ (b)` and `(a) !~~ (b)` of `(a) =~~ (b)`: one is accepted exactly if the other is, with the same exception otherwise, and for every thing they return opposite booleans or raise the same exception, with the same effects.", "quantifier": "every pair or triple of accepted texts, every context and thing, after any history of the process", "why_tests_cant": "ranges over all rules as operands, with side effects of resolvers and functions", "anchors": ["lib/rule_engine/ast.py: LogicExpression, UnaryExpression, TernaryExpression, ComparisonExpression, FuzzyComparisonExpression, LeftOperatorRightExpressionBase.reduce"]}
{"id": "C58", "title": "What a rule depends on", "statement": "What evaluating a rule returns or raises depends on the thing only through the resolver's answers for the names without `$` written in the rule that are not uses of a comprehension variable. Constructing a rule adds to Context.symbols exactly the names written in it, other than those after a dot or after `for`: plain ones, `$` ones and uses of comprehension variables. Every SymbolResolutionError, SymbolTypeError, AttributeResolutionError and AttributeTypeError that evaluation raises is about a name written in the rule and has its documented cause: the resolver refused the thing's name, there is no such builtin, the value has the wrong type, or neither the value nor the resolver has the attribute; resolution errors only if the context has no default value. So a thing that provides every name the rule takes from it never meets a SymbolResolutionError.", "quantifier": "every text that is a rule, every pair of things, every context whose Python arithmetic raises no engine errors, after any history of the process", "why_tests_cant": "ranges over all rules and all pairs of things", "anchors": ["lib/rule_engine/ast.py: SymbolExpression.__init__, SymbolExpression.evaluate, GetAttributeExpression.evaluate, ComprehensionExpression", "lib/rule_engine/engine.py: Context.symbols, Context.resolve"]}
{"id": "C59", "title": "Operators accept exactly the documented operand types", "statement": "Let a and b be texts the context accepts, with types A and B (possibly unknown). The rule '(a) op (b)' is accepted exactly if the operand table of the documentation has an entry for op that A and B can turn out to match (and literal operands of bitwise operators are natural numbers, literal patterns are valid), and its type is then that of the entry; otherwise the constructor refuses it with EvaluationError. The same holds of 'in', item access, slices, attribute access, comprehensions and calls with their own tables and errors; 'not', unary minus and the ternary accept anything.", "quantifier": "every pair of accepted texts, every operator and type, every history of the context", "why_tests_cant": "the types (nested collections, functions) and operand texts are unbounded", "anchors": ["lib/rule_engine/ast.py: LeftOperatorRightExpressionBase.__init__ and subclasses, ContainsExpression, GetAttributeExpression, GetItemExpression, GetSliceExpression, ComprehensionExpression, FunctionCallExpression._validate_function", "docs/source/syntax.rst", "docs/source/attributes.rst"]}
{"id": "C60", "title": "Data type definitions behave as values", "statement": "== of data type definitions is an equivalence that compares everything but the names of functions, and equal definitions have equal hashes (they are hashable unless a FUNCTION in them was given its argument types as a list). DataType.FUNCTION requires every argument unless a minimum is given and refuses a minimum over their number; DataType.MAPPING refuses exactly SET and MAPPING keys. DataType.from_name, DataType[name], iteration and len agree on the twelve constants and refuse every other name.", "quantifier": "every pair of definitions of any nesting, every name", "why_tests_cant": "definitions nest without bound", "anchors": ["lib/rule_engine/types.py: _DataTypeDef and subclasses, DataTypeMeta, DataType.from_name"]}
{"id": "C61", "title": "Builtin symbols: defaults, overrides and namespaces", "statement": "Builtins.from_defaults gives under each name the value supplied for it, otherwise the default; types likewise, separately from values; every other name is a SymbolResolutionError and has type UNDEFINED. A mapping among the values is a namespace with the dotted name, the same timezone and no types, and $ns.name is its item; a generated value is what its generator returns for the instance. The builtins of a Context are the documented ones plus $re_groups.", "quantifier": "every set of supplied values and types, every name, any nesting of namespaces", "why_tests_cant": "values, names and namespaces are arbitrary", "anchors": ["lib/rule_engine/builtins.py: Builtins, BuiltinValueGenerator", "lib/rule_engine/engine.py: Context.__init__, Context.resolve, resolve_item"]}
{"id": "C62", "title": "Making a context", "statement": "Context(...) uses the resolver, default value and decimal context given, and otherwise item lookup, none, and the decimal context of the creating thread; default_timezone is a tzinfo or 'local' or 'utc' in any case, other texts are ValueError and other values TypeError. With a mapping as type_resolver a name has the type, or the type of the example value, given for it and other names are refused; construction fails exactly if an example has no type. A context whose type_resolver is an example thing accepts that example: each of its names has the type of its value and evaluates to the normalised value.", "quantifier": "every combination of arguments, every example thing, every history of the context", "why_tests_cant": "examples are values of any nesting", "anchors": ["lib/rule_engine/engine.py: Context.__init__, type_resolver_from_dict, resolve_item", "lib/rule_engine/ast.py: SymbolExpression.evaluate"]}
{"id": "C63", "title": "Regular expression operators", "statement": "a =~ b, a =~~ b, a !~ b and a !~~ b: a must be a string or null (EvaluationError otherwise, b not evaluated), then b; null matches null and only null; a pattern is compiled whatever a is, and an invalid one is RegexSyntaxError (OverflowError if re.compile gives up on a repetition count); otherwise =~ is true iff the pattern matches at the start of the text, =~~ iff it matches anywhere, and !~, !~~ are their negations. A rule with an invalid pattern written as a literal is refused when it is made.", "quantifier": "every pair of texts a and b that are rules, every thing, context, state and regular expression engine", "why_tests_cant": "operands are arbitrary rules, folded or not, and the engine is a parameter", "anchors": ["lib/rule_engine/ast.py: FuzzyComparisonExpression", "docs/source/syntax.rst"]}
{"id": "C64", "title": "$map and $filter agree with comprehensions", "statement": "$map(f, a) gives the same value as [f(x) for x in a], $filter(f, a) the same as [x for x in a if f(x)], and [x for x in a] is the array of the members of a: whenever the rules are accepted and evaluation raises nothing, members are normalised values and no member or result is a datetime without timezone.", "quantifier": "every rule text a, function name f, variable x, thing, context and history", "why_tests_cant": "arrays of any length, any function", "anchors": ["lib/rule_engine/builtins.py: _builtin_map, _builtin_filter", "lib/rule_engine/ast.py: ComprehensionExpression, FunctionCallExpression"]}
{"id": "C65", "title": "Attributes of whole rules; collection attributes", "statement": "(a).n gives the attribute n of whatever the rule a gives, folded or not. (a).length is the number of members iteration goes through and (a).is_empty says whether there are none, and neither raises; (a).to_ary is the array of the normalised members in order; (a).to_set contains each member or an equal one exactly once; (a).keys and (a).values of a mapping list its keys and the values that go with them in the same order.", "quantifier": "every rule text a, every attribute, thing, context and history", "why_tests_cant": "the rule a is arbitrary, collections have any size and nesting", "anchors": ["lib/rule_engine/engine.py: _AttributeResolver", "lib/rule_engine/ast.py: GetAttributeExpression, LiteralExpressionBase.from_value"]}
{"id": "C66", "title": "Which errors a rule can raise", "statement": "Every EngineError that Rule.evaluate raises is one that a construct written in the rule can raise: EvaluationError from operators other than ==, !=, and, or, from comprehensions, `in`, unary minus, item access, slices, calls of something that is no function and `.to_int`; RegexSyntaxError only from a regex operator whose pattern is not a string literal; LookupError only from item access that is not safe; FunctionCallError only from calls; the errors about names from names and attributes as documented; or it is a plain EngineError. So it is a subclass of EvaluationError, a RegexSyntaxError or a plain EngineError: syntax errors of literals are all found when the rule is made. Every EngineError that Rule(text) raises is RuleSyntaxError, StringSyntaxError or BytesSyntaxError if the text is no rule, and otherwise one that a construct written in it can raise, or a plain EngineError. A rule of literals, array literals, names, ==, !=, and, or, not and ?: only never raises for a thing that provides its names, whatever their values.", "quantifier": "every text, thing and history of the process; every context whose Python arithmetic raises no EngineErrors (for the class corollaries, whose resolver raises no EngineErrors other than SymbolResolutionError; for the last sentence, a context without types)", "why_tests_cant": "ranges over all rules, things and contexts; a test sees one error at a time", "anchors": ["lib/rule_engine/ast.py: evaluate and __init__ of all expression classes", "lib/rule_engine/errors.py: EngineError and subclasses", "lib/rule_engine/engine.py: Rule.__init__, Rule.evaluate"]}
{"id": "C67", "title": "Order and number of lookups, calls and matches", "statement": "During one evaluation the resolver is asked for names, functions are called and regex matches are recorded in the order of the rule as written: operands from left to right and then the operator; for `in` the container before the member; for a comprehension the iterable, then for each member the condition and then the result; for a mapping literal all keys, then the values; for a call the function, the arguments, the call. Steps may be left out (short-circuit, safe navigation, constants computed when the rule is made, an exception ends the evaluation) but never happen out of order or twice. So a rule without comprehensions asks the resolver for a name at most as often as the name is written in it.", "quantifier": "all rule texts, contexts, resolvers, functions, things and earlier histories", "why_tests_cant": "the order is a property of every combination of constructs and every point at which an evaluation can stop, and of all resolvers (including ones with side effects); a test fixes one rule and one trace", "anchors": ["lib/rule_engine/ast.py: every evaluate method (211-212, 301-316, 394-445, 632-667, 700-712, 745-750, 801-834, 870-905, 960-990, 1026-1059, 1084-1106, 1185-1190, 1240-1260)", "lib/rule_engine/engine.py: Context.resolve 518-541"]}
{"id": "C68", "title": "A composite rule gives what its parts give, combined", "statement": "For a rule made from parts by an operator, `in`, an item, a slice (with both, one or no bound), `not`, `-`, `? :`, an array, set or mapping literal, a function call or an attribute: what the rule gives for a thing (value or exception) is what the operation gives for what the parts, made as rules of their own, give for that thing. This holds although constants are computed when the rule is made, short-circuiting leaves parts out, and whatever was evaluated before; the part evaluated later must not use `$re_groups`, which reads the match of the part before it. So parts can be replaced by others that give the same without changing what the rule gives.", "quantifier": "all rule texts as parts, contexts, resolvers, functions, things and earlier histories, and all nestings of the constructs", "why_tests_cant": "the composition ranges over all sub-rules and all data; an optimisation (constant folding, short-circuit) that is wrong for one operand kind in one position is not met by tests of single constructs", "anchors": ["lib/rule_engine/ast.py: LeftOperatorRightExpressionBase 346-407, Contains 724-757, GetItem 841-915, GetSlice 924-990, Ternary 1170-1206, Unary 1217-1275, Array 224-233 (build, reduce, evaluate)", "lib/rule_engine/engine.py: Rule.__init__ 588-599, Rule.evaluate 635-646"]}
{"id": "C69", "title": "Laws of comparison, arithmetic and sets hold between rules", "statement": "For rules a, b, c that give values: `(a) < (b)` and `(b) > (a)`, `<=` and `>=`, `==` and `==`, `!=` and `!=` with exchanged sides give the same truth value or the same exception; for values of one orderable type exactly one of `<`, `==`, `>` is true, `(a) <= (b)` gives the same as `not ((b) < (a))`, and `<=` is transitive; `+`, `*`, `&`, `|`, `^` of numbers do not depend on the order of the operands; joining texts is associative; `(m) in ((a) | (b))` gives the same as `((m) in (a)) or ((m) in (b))`, likewise `&`/`and`, `^`/`!=`; `(a) | (b)` equals `(b) | (a)` for sets, likewise `&`, `^`; `(m) in ((a).to_set)` and `(m) in (a)` give the same for arrays, `(m) in ((a).keys)` and `(m) in (a)` for mappings.", "quantifier": "all rule texts as parts, contexts, things, histories and all values of the kinds named, arrays of any length and depth", "why_tests_cant": "the laws relate pairs of rules over all values, including nested arrays, mixed time zones and values that make both sides raise; a test compares single results", "anchors": ["lib/rule_engine/ast.py: ComparisonExpression 577-591, ArithmeticComparisonExpression 593-630, AddExpression 409-445, ArithmeticExpression 488-509, BitwiseExpression 511-556, ContainsExpression 724-757", "lib/rule_engine/engine.py: _AttributeResolver 154-402, Rule.evaluate 635-646"]}
{"id": "C70", "title": "A comprehension gives, member by member, what its parts give for that member", "statement": "`[r for x in a if c]` (with or without the condition) is accepted exactly when a is a collection or of undefined type and the texts c and r are accepted as rules in the same context with x declared with the member type of a, and is refused with their exception, c's first, otherwise (EvaluationError if a is no collection). Evaluating it gives the array of what r gives for those members m of what a gives, in order, for which c gives a true value, where c and r are evaluated as rules in the context in which x resolves to m; the first exception, in this order, ends it. Provided c and r use x neither as an attribute nor as variable of a comprehension of their own, and do not use $re_groups.", "quantifier": "all rule texts a, r, c, names x, contexts (resolvers, type resolvers, default values), things, earlier histories, and collections of any length", "why_tests_cant": "a variable in scope has to be indistinguishable from a resolved name in every construct the parts may contain, nested to any depth, including constant folding at construction; a test runs a few comprehensions over a few collections", "anchors": ["lib/rule_engine/ast.py: ComprehensionExpression 677-712, Assignment 79-96, SymbolExpression 1001-1059, GetAttributeExpression 766-834", "lib/rule_engine/engine.py: Context.assignments/resolve/resolve_type 419-576"]}
{"id": "C71", "title": "Equals can be replaced by equals at any depth of a rule", "statement": "If a rule is changed by replacing parts of it, at any depth and under any mix of operators, membership tests, item access, slices, negations, conditionals, array, set and mapping literals, attribute accesses, calls and comprehensions, by parts that give the same value or raise the same exception for the thing (inside a comprehension: for every value of its variable), and both rules are accepted, then both rules give the same value or raise the same exception for that thing. ($re_groups is not used; called parts and iterables keep their static type; the object of an attribute is not a constant.)", "quantifier": "all pairs of rule texts related by such replacements, of any size and nesting; all contexts, things and earlier histories", "why_tests_cant": "it relates unboundedly many pairs of rules; whether a construct evaluates a part with other state, another order or another context than the part alone would has to be excluded for every construct and every nesting", "anchors": ["lib/rule_engine/ast.py: all expression classes 153-1275", "lib/rule_engine/engine.py: Context 419-576, Rule.evaluate 635-646"]}
{"id": "C72", "title": "Re-entrant evaluation: harmless outside comprehensions, never a silently wrong value inside", "statement": "A resolver or function of a context may itself construct and evaluate rules of the same context while a rule is being evaluated, to any depth. A rule that uses neither a comprehension nor $re_groups then gives the same value or raises the same exception as it would without these nested evaluations. A rule with comprehensions (without $re_groups) gives the same outcome or raises Python's IndexError - it never returns a different value; `[n for x in a]` does raise IndexError as soon as a is not empty and looking n up evaluates a rule. $re_groups is replaced by a nested evaluation.", "quantifier": "all rule texts, contexts, resolvers and functions that construct and evaluate any rules of the same context in any order, chosen in any way and nested to any depth; all things and earlier histories", "why_tests_cant": "nested evaluations can be triggered at every lookup and every call of every rule, in unboundedly many patterns; a test tries a few", "anchors": ["lib/rule_engine/engine.py: _ThreadLocalStorage.reset 404-417, Context.assignments 497-512, Context.resolve 518-541, Rule.evaluate 635-646", "lib/rule_engine/ast.py: ComprehensionExpression.evaluate 700-712, SymbolExpression.evaluate 1026-1059, FunctionCallExpression.evaluate 1084-1106"]}
{"id": "C73", "title": "Builtin functions inside rules: what $name(t, \u2026) gives, from what its argument rules give", "statement": "A call of a builtin function gives what the function gives for the values of its argument rules, or the first exception of those. Hence, between rules: $any([a, b]) and $all([a, b]) agree with `a or b` and `a and b` when a and b both give values; $any([c for x in a]) is true exactly when c is true for a member, $all exactly when it is true for all members, and $any([c for x in a]) always gives the same as `not $all([not c for x in a])`; $sum([t1, \u2026]) is 0 + t1 + \u2026 added from the left (FunctionCallError where that raises); $min/$max give what one of the rules gives, and no member is smaller/larger; $min([a, b]) is `b < a ? b : a`; $abs(a) is the absolute value, and the same as -a below zero; `m in $range(n)` holds exactly for the whole numbers 0 \u2264 m < n.", "quantifier": "all rule texts for the arguments (any size, without $re_groups), contexts, things, values, processes and earlier histories", "why_tests_cant": "the argument rules are arbitrary and of any number; a test evaluates a few of them on a few things", "anchors": ["lib/rule_engine/builtins.py: _builtin_filter \u2026 _builtins_split 48-84, Builtins.from_defaults 156-214", "lib/rule_engine/ast.py: FunctionCallExpression 1064-1132, SymbolExpression 1001-1059, ComprehensionExpression 677-712"]}
{"id": "C74", "title": "What rules give is made as Python makes it, and equal rules can replace each other", "statement": "When the data an embedding program provides consist of sets and dictionaries as Python makes them, everything any rule gives does: at every level, members of sets are hashable and no two are equal, keys of mappings likewise, and mappings are ordered ones. Hence, with no further condition on the values: exchanging the sides of a comparison (and turning it round) gives the same; (m) in ((a) | (b)) gives the same as ((m) in (a)) or ((m) in (b)), and so for & and ^; (a) == (a) is true (unless there is a NaN in it); and when (a) == (b) is true, (c) == (a) and (c) == (b) give the same, (a) in (c) and (b) in (c) give the same for arrays, sets and mappings c, and (c)[a] and (c)[b] give the same: the same value or the same exception.", "quantifier": "all rule texts of any size, contexts whose resolver and functions give well-formed data, well-formed things, processes and earlier histories", "why_tests_cant": "the rules and the data are arbitrary; an operation that makes a set with equal members, or an equality that some operation does not respect, shows only for particular values", "anchors": ["lib/rule_engine/ast.py: SetExpression 327-337, MappingExpression 283-316, BitwiseExpression 511-556, ComparisonExpression 577-591, ContainsExpression 724-757, GetItemExpression 841-915, ComprehensionExpression 677-712, _new_value 146-151", "lib/rule_engine/types.py: coerce_value 60-88", "lib/rule_engine/engine.py: _AttributeResolver 154-402 (to_set, keys, values)"]}
{"id": "C75", "title": "The diagram of a rule: a tree with exactly the nodes and parts of the rule", "statement": "Rule.to_graphviz draws one node for the statement, one for every part of the folded rule that diagrams show (everything but the keys and values of mapping literals), with its class and the operator, name, variable or value it has, and one for the comment; it draws an edge from each node to each of its parts with the role the part has there (left/right, container/member, result/iterable/condition, function/argument #1, #2, \u2026). Nothing is drawn twice or with two labels; edges join drawn nodes; every node but the statement and the comment is reached by exactly one edge, so that the diagram is a tree. Two rules with the same nodes are the same up to what a diagram does not show: safe (&.) access, the $ of names, contents of mapping literals, declared types.", "quantifier": "all syntax trees of any size and depth, with or without a comment; all positions in them; all pairs of trees", "why_tests_cant": "each test draws one rule; that no node or edge is missing, doubled or wrongly labelled for every nesting of every construct, and that different rules have different diagrams, is a statement about all trees and all pairs of them", "anchors": ["lib/rule_engine/ast.py: ASTNodeBase.to_graphviz (99-100), Comment (133-134), LiteralExpressionBase (201-205), _CollectionMixin (218-222), LeftOperatorRightExpressionBase (402-407), ComprehensionExpression (714-722), ContainsExpression (759-764), GetAttributeExpression (836-839), GetItemExpression (917-922), GetSliceExpression (992-999), SymbolExpression (1061-1062), FunctionCallExpression (1134-1140), Statement (1163-1168), TernaryExpression (1208-1215), UnaryExpression (1277-1280)", "lib/rule_engine/engine.py: Rule.to_graphviz (659-669)"]}
{"id": "C76", "title": "Evaluation when answers change: only the answers count, and names are asked for as written", "statement": "With a resolver, functions, a clock and random numbers whose answers may change during an evaluation (side effects, other threads), Rule.evaluate depends on its surroundings only through the answers it gets: if the same questions get the same answers, result, exception, questions and the state afterwards are the same; if the answers are those of a resolver, functions and clock without state, the result is what the rule gives with these. Whatever the answers, names are asked for, builtin symbols read and functions called in the order of the rule as written, a name at most as often as it is written (in a rule without comprehensions); so a rule in which no name is written twice gives with any changing resolver what it gives with one that always gives one of its answers. A name written twice can have two values in one evaluation.", "quantifier": "all rules (texts), all worlds (answers as arbitrary functions of the history of the evaluation), all things, all process states", "why_tests_cant": "a test fixes the answers; the claim is about every sequence of answers a stateful or concurrently changed resolver can give, and about every rule", "anchors": ["lib/rule_engine/engine.py: Context.resolve (518-541), Rule.evaluate (635-646)", "lib/rule_engine/builtins.py: BuiltinValueGenerator (86-99), Builtins.__getitem__ (138-148), _builtin_filter/_builtin_map (48-52)", "lib/rule_engine/ast.py: evaluate of every node class; SymbolExpression.evaluate (1026-1059), GetAttributeExpression.evaluate (801-826), FunctionCallExpression.evaluate (1084-1106)"]}
{"id": "C77", "title": "Objects as things: resolve_attribute, and exchanging one resolver for another", "statement": "A rule asks its resolver only for the names it takes from the thing and for what it writes after a dot: with two resolvers that agree there (each on its own thing) it is constructed and evaluates in the same way. In particular a rule without dots gives with resolve_attribute on an object what it gives with resolve_item on a dictionary with the same data. With resolve_attribute a path x.y.z through objects of any depth gives what Python's path gives; a missing last attribute gives the default value or SymbolResolutionError (name) / AttributeResolutionError (after a dot) naming it; other exceptions of the object are passed on. Each lookup reads the attribute at most twice, the second reading is the one that counts, and if the attribute is gone by then the evaluation raises AttributeError.", "quantifier": "all rules (texts), all pairs of resolvers, all things, all object graphs and paths of any length, all sequences of answers of changing objects, all process states", "why_tests_cant": "tests evaluate particular rules on particular objects; equality of two resolvers' results for every rule, paths of every length and objects that change between two readings cannot be enumerated", "anchors": ["lib/rule_engine/engine.py: resolve_attribute (57-73), resolve_item (75-89), Context.resolve (518-541), _AttributeResolver.__call__ (169-182)", "lib/rule_engine/ast.py: SymbolExpression.evaluate (1026-1059), GetAttributeExpression.evaluate (801-826), GetAttributeExpression.reduce"]}
{"id": "C78", "title": "DebugRule makes the same rules, reports exact places and leaves no trace", "statement": "For every text and context DebugRule(text, context) makes the same statement as Rule(text, context) or raises the same exception, after any history of rules made, refused and evaluated with either class, and the two objects evaluate alike on every thing. DebugRule reports a syntax error at its line and offset in the text whatever was parsed before (Rule does not). What was done with DebugRule has no influence on later rules, nor on the places they report. str(rule) is the text, and the rule remade from it with either class is the same rule. DebugRule.is_valid raises AttributeError for every text.", "quantifier": "all texts, contexts, things, and histories of actions of both classes of any length", "why_tests_cant": "histories of any length and all texts; tests use DebugRule once or not at all", "anchors": ["lib/rule_engine/engine.py: Rule (578-646), DebugRule (671-675)", "lib/rule_engine/parser/base.py: ParserBase.__init__ (51-62), parse (63-82)"]}
{"id": "C79", "title": "Declaring the types of names only adds refusals", "statement": "Let a rule be given a type resolver, and another one that answers for every name either the same or UNDEFINED. For every rule text whose tree is even (no safe item access a&[b]; members of collection literals, branches of a ternary and operands of < <= > >= are not collections whose member types depend on names; no comprehension variable whose type is such a collection two deep): if Rule(text) is accepted with the declared types it is accepted with fewer of them; and rule.evaluate(thing) with the declared types either does exactly what it does with fewer (same result or exception, same calls of resolver and functions), or raises one of the exceptions that check types (SymbolTypeError, FunctionCallError, or the exception for a value without type). So a value returned with type declarations is the value returned without. Each of the exceptions to 'even' really breaks the property (witness rules).", "quantifier": "every even rule text, every pair of type resolvers one of which knows less, every thing, resolver, literal decoder, thread context and earlier history", "why_tests_cant": "It compares two type resolvers over all rules and all things: partial type knowledge flows through every operator, literal, comprehension and attribute, and the property is false for a few shapes of rules that tests do not enumerate.", "anchors": ["lib/rule_engine/ast.py:SymbolExpression", "lib/rule_engine/ast.py:LeftOperatorRightExpressionBase", "lib/rule_engine/ast.py:FunctionCallExpression", "lib/rule_engine/engine.py:Context.resolve_type", "lib/rule_engine/types.py:DataType.is_compatible"]}
{"id": "C80", "title": "Laws of comprehensions between rules", "statement": "Let a be a rule that gives a collection or text, x a plain name that the other parts use neither as an attribute nor as a variable of their own, and let no part use $re_groups. [x for x in a] gives the array of a's members in order. [r for x in a] has as many members as a (same .length, same .is_empty). When [x for x in a if c] gives a value: [r for x in ([x for x in a if c]) if d] gives the same value or exception as [r for x in a if (c) and (d)]; [r for x in ([x for x in a if c])] the same as [r for x in a if c]; $any([c for x in a]) the same as not (([x for x in a if c]).is_empty); and, for not c, $all([c for x in a]) the same as ([x for x in a if not (c)]).is_empty. What [x for x in a if c] and [x for x in a if not (c)] give are together exactly the members of a, each as often, and each in a's order. (m) in (a) gives the same as $any([(x) == (m) for x in a]) for an array of members of m's type (and not without that condition: true in [1]).", "quantifier": "all rule texts a, c, d, r, m and names x as stated, every context, thing, literal decoder, collection of any size and values of any kind", "why_tests_cant": "The laws compare infinitely many pairs of rules, over collections of every size, with conditions and results that may raise exceptions for some members; nested comprehensions infer and check types, bind variables and order exceptions differently from the single ones they are compared with.", "anchors": ["lib/rule_engine/ast.py:ComprehensionExpression", "lib/rule_engine/ast.py:ContainsExpression", "lib/rule_engine/ast.py:SymbolExpression", "lib/rule_engine/builtins.py:Builtins", "lib/rule_engine/engine.py:_AttributeResolver"]}
{"id": "C81", "title": "The debug REPL shows what a rule does in a program", "statement": "Every line typed at the debug REPL gets one reply: no rule and no exception ends the loop. The reply to a line is what Rule(line, context).evaluate(thing) does in a new process: the value, or the exception and, for a syntax error, its place in the line (a line has no newline in it). Nothing typed before counts, but for the flag of the last `#! debug = word` command, which only decides whether a traceback is printed too. Such a command takes no text from the rule language: Rule refuses every text that the REPL takes for a command, with RuleSyntaxError, so a line that is a rule always gets its result.", "quantifier": "all sequences of lines of input of any length, rule texts, contexts, things, starting flags and letters of \\w", "why_tests_cant": "A session is an unbounded sequence of arbitrary texts sharing one parser, one context and one thread; what must not leak from one line to the next ranges over all of them, and the texts taken for commands are infinitely many.", "anchors": ["lib/rule_engine/debug_repl.py:main", "lib/rule_engine/engine.py:Rule", "lib/rule_engine/parser/__init__.py:Parser", "lib/rule_engine/parser/base.py:ParserBase.parse"]}
{"id": "C82", "title": "Suggestions in errors can be followed", "statement": "When a name is not found, the error's suggestion is a name that is there, and never the name itself: a key of the mapping (resolve_item), a declared name (type_resolver_from_dict), an attribute of the type (attributes); for an attribute access, of the attribute and the key suggested, the better one. Asking for the suggested name in the same place never raises the same error again. Nothing is suggested exactly if there is no symbol name to suggest. A suggested attribute, and any other suggested name that can be written in a rule (no reserved word, no leading $, no newline), makes an accepted rule, which for a key gives that key's value and for a declared name has the declared type. (Without that condition this is false: a key `if` or `$pi` is suggested too.)", "quantifier": "all mappings, declarations, data types, objects, names of at most 2^53 characters, states, and floating point roundings of the similarity", "why_tests_cant": "The options are the user's own keys, unboundedly many and of any spelling; the advice is computed at one place and followed at another (lexer, parser, scopes, attribute resolution), and must fit for every pair.", "anchors": ["lib/rule_engine/engine.py:resolve_item", "lib/rule_engine/engine.py:_type_resolver", "lib/rule_engine/engine.py:_AttributeResolver", "lib/rule_engine/ast.py:GetAttributeExpression", "lib/rule_engine/suggestions.py:suggest_symbol", "lib/rule_engine/errors.py:SymbolResolutionError"]}
{"id": "C83", "title": "A context's settings matter only where they are used", "statement": "The default timezone, the decimal context (of the context and of the constructing thread) and the flags for regular expressions can change a rule only where it uses them. Exchange any of them for others: a rule without $now, $today, $parse_datetime and datetime literals without timezone (timezone), without + - * / // % **, minus signs, $abs and $sum (decimal contexts), without =~ =~~ !~ !~~ (flags) is accepted or refused with the same exception, and gives the same value or exception, matches and filters alike, for every thing without datetimes without timezone, dates, or functions that use an exchanged setting. For the flags there is no condition on things or context at all. Each of the exclusions is needed: for each of them there is a rule that gives something else.", "quantifier": "all contexts, exchanged settings, rule texts, histories, things and lists of things", "why_tests_cant": "A setting reaches evaluation at any depth, through constant folding, coercions, comprehension variables, and data; that it has no influence elsewhere is a statement about all pairs of contexts and all rules.", "anchors": ["lib/rule_engine/engine.py:Context", "lib/rule_engine/ast.py:ExpressionBase._new_value", "lib/rule_engine/ast.py:FuzzyComparisonExpression", "lib/rule_engine/ast.py:DatetimeExpression", "lib/rule_engine/ast.py:UnaryExpression", "lib/rule_engine/builtins.py", "lib/rule_engine/parser/utilities.py:parse_datetime"]}
{"id": "C84", "title": "The names of comprehension variables do not matter", "statement": "Two rules that differ only in the names of comprehension variables - each name refers in both to the same comprehension, or in both to no comprehension and is the same name - are interchangeable: both are accepted or both are refused with the same exception, with the same lookups and calls; accepted, they have the same result type and, for every thing and after every history, give the same value, match or exception (a SymbolTypeError names the corresponding variable), make the same lookups and function calls in the same order and leave the same groups. In particular every one-to-one renaming of comprehension variables, at any depth, that leaves names of attributes and of symbols outside the comprehensions alone changes nothing else. Both provisos are needed: an attribute that the object lacks is looked up as a comprehension variable, and the variable of an inner comprehension does not hide the outer one.", "quantifier": "all contexts, histories, pairs of rule texts that differ only in such names, injective renamings, things", "why_tests_cant": "It relates all rules with all renamed rules, at every nesting of comprehensions, in every context and for every thing; lookups go through a stack of assignments whose names differ between the two runs.", "anchors": ["lib/rule_engine/ast.py:ComprehensionExpression", "lib/rule_engine/ast.py:SymbolExpression", "lib/rule_engine/ast.py:GetAttributeExpression", "lib/rule_engine/ast.py:Assignment", "lib/rule_engine/engine.py:Context.resolve", "lib/rule_engine/engine.py:Context.resolve_type", "lib/rule_engine/engine.py:Context.assignments"]}
{"id": "C85", "title": "Sets have no order", "statement": "Python gives the members of a set in an order that differs from process to process (string hashes are seeded) and from history to history. A rule in which no function is called but builtin ones other than $map and $filter, the attributes to_ary, starts_with and ends_with are not read, and comprehensions go through arrays, mappings, slices or comprehensions but nothing that could be a set, cannot see that order: for two things that differ only in the order in which the members of sets come, at any depth in arrays and mappings, it raises the same exception, or gives results that differ only in that order; so it matches both or neither. The same holds when Python lists every set that an evaluation makes or reads in an order of its own choice, which may change from node to node. This includes the types computed for sets, comparisons of sets and of collections that contain them, set operators, membership, items and slices, attributes, and the checks of symbols against declared types. The conditions are needed: a comprehension through a set, to_ary, $map given $sum (sums are rounded), and a function of the program tell the orders apart.", "quantifier": "all rule texts and histories, things and permutations of the sets in them at every depth, orders of listing sets during the evaluation (any function of the history and the value), contexts whose resolver answers alike for both (resolve_item does), default values, declared types", "why_tests_cant": "A test runs in one process with one hash seed and sees one order; the claim is about every pair of orders, for every rule and every nesting of sets, and a dependence shows only for particular pairs.", "anchors": ["lib/rule_engine/types.py:iterable_member_value_type", "lib/rule_engine/types.py:from_value", "lib/rule_engine/ast.py:BitwiseExpression._op_bitwise_set", "lib/rule_engine/ast.py:SymbolExpression.evaluate", "lib/rule_engine/ast.py:ContainsExpression", "lib/rule_engine/ast.py:ComprehensionExpression", "lib/rule_engine/engine.py:_AttributeResolver", "lib/rule_engine/engine.py:Rule.matches"]}
