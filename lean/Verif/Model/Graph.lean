import Verif.Model.Parser

/-!
# The diagram of a rule (`Rule.to_graphviz`, engine.py 659-669)

`to_graphviz` issues `digraph.node(id, label)` and `digraph.edge(id, id, label)` commands.  The identity of a node is
`id(self)`, an address; all nodes of a rule are alive while it is drawn and none occurs in two places of the tree, so
identities are modelled by positions in the tree.  A label is modelled by its parts (the class name, and what is shown with
`repr`), not by its text.
-/

namespace RE

/-- The label of a node: the class name, and what is shown besides it (ast.py 99-100, 201-205, 403, 715, 837, 1062, 1278). -/
inductive DLabel where
  /-- only the class name (ast.py 100, 203) -/
  | plain (cls : String)
  /-- `value=...` (ast.py 205) -/
  | value (cls : String) (v : Value)
  /-- `type=...` (ast.py 403, 1278) -/
  | type (cls ty : String)
  /-- `variable=...` (ast.py 715) -/
  | var (cls name : String)
  /-- `name=...` (ast.py 837, 1062) -/
  | name (cls name : String)
  /-- the text of a comment (ast.py 134) -/
  | comment (text : String)
  deriving DecidableEq, Repr

/-- One command of the drawing (engine.py 667-668). -/
inductive DCmd where
  | node (id : List Nat) (label : DLabel)
  | edge (source target : List Nat) (label : String)
  deriving DecidableEq, Repr

/-- class of a binary operator node (parser/__init__.py 71-90, ast.py 409-672) -/
def BinOp.cls : BinOp → String
  | .add => "AddExpression"
  | .sub => "SubtractExpression"
  | .arith _ => "ArithmeticExpression"
  | .bit _ => "BitwiseExpression"
  | .shift _ => "BitwiseShiftExpression"
  | .and | .or => "LogicExpression"
  | .eq | .ne => "ComparisonExpression"
  | .cmp _ => "ArithmeticComparisonExpression"
  | .fuzzy .. => "FuzzyComparisonExpression"

/-- `self.type` of a binary operator node: the grammar type in lower case (parser/__init__.py 71-87, ast.py 370-371) -/
def BinOp.typeName : BinOp → String
  | .add => "add"
  | .sub => "sub"
  | .arith op => match op with
    | .add => "add" | .sub => "sub" | .mul => "mul" | .tdiv => "tdiv" | .fdiv => "fdiv" | .mod => "mod" | .pow => "pow"
  | .bit op | .shift op => match op with
    | .and => "bwand" | .or => "bwor" | .xor => "bwxor" | .lsh => "bwlsh" | .rsh => "bwrsh"
  | .and => "and"
  | .or => "or"
  | .eq => "eq"
  | .ne => "ne"
  | .cmp op => match op with
    | .lt => "lt" | .le => "le" | .gt => "gt" | .ge => "ge" | .ne => "ne"
  | .fuzzy search negate => (if negate then "ne" else "eq") ++ (if search then "_fzs" else "_fzm")

/-- class of a scalar literal node (ast.py 235-344): the subclass for its type -/
def literalClass : DataType → String
  | .boolean => "BooleanExpression"
  | .bytes => "BytesExpression"
  | .datetime => "DatetimeExpression"
  | .float => "FloatExpression"
  | .null => "NullExpression"
  | .string => "StringExpression"
  | .timedelta => "TimedeltaExpression"
  | .function .. => "FunctionExpression"
  | _ => "LiteralExpressionBase"

mutual
/-- `to_graphviz` of an expression node (ast.py 201-205, 218-222, 402-407, 714-722, 759-764, 836-839, 917-922, 992-999,
1061-1062, 1134-1140, 1208-1215, 1277-1280).  `id` is the position of the node.  `MappingExpression` inherits the method of
literals (ast.py 201-205): its keys and values are not drawn.  Simplified: the tree does not tell an absent condition of a
comprehension from the literal `true`; neither is drawn.  The members of a set literal made by folding are drawn in Python in
no particular order. -/
def draw (id : List Nat) : Expr → List DCmd
  | .lit v rt => [.node id (if rt.isCompound then .plain (literalClass rt) else .value (literalClass rt) v)]
  | .array xs => .node id (.plain "ArrayExpression") :: drawMembers id 0 xs
  | .set xs => .node id (.plain "SetExpression") :: drawMembers id 0 xs
  | .mapping _ => [.node id (.plain "MappingExpression")]
  | .bin op l r =>
    .node id (.type op.cls op.typeName) :: (draw (id ++ [0]) l ++ draw (id ++ [1]) r ++
      [.edge id (id ++ [0]) "left", .edge id (id ++ [1]) "right"])
  | .comp result var iterable cond =>
    .node id (.var "ComprehensionExpression" var) :: (draw (id ++ [0]) result ++ [.edge id (id ++ [0]) "result"] ++
      draw (id ++ [1]) iterable ++ [.edge id (id ++ [1]) "iterable"] ++
      (match cond with
        | .lit (.bool true) _ => []
        | cond => draw (id ++ [2]) cond ++ [.edge id (id ++ [2]) "condition"]))
  | .contains container member =>
    .node id (.plain "ContainsExpression") :: (draw (id ++ [0]) container ++ draw (id ++ [1]) member ++
      [.edge id (id ++ [0]) "container", .edge id (id ++ [1]) "member"])
  | .getAttr obj name _ =>
    .node id (.name "GetAttributeExpression" name) :: (draw (id ++ [0]) obj ++ [.edge id (id ++ [0]) ""])
  | .getItem container item _ =>
    .node id (.plain "GetItemExpression") :: (draw (id ++ [0]) container ++ draw (id ++ [1]) item ++
      [.edge id (id ++ [0]) "container", .edge id (id ++ [1]) "item"])
  | .getSlice container start stop _ =>
    .node id (.plain "GetSliceExpression") :: (draw (id ++ [0]) container ++ draw (id ++ [1]) start ++
      draw (id ++ [2]) stop ++
      [.edge id (id ++ [0]) "container", .edge id (id ++ [1]) "start", .edge id (id ++ [2]) "stop"])
  | .sym name _ _ => [.node id (.name "SymbolExpression" name)]
  | .call f args =>
    .node id (.plain "FunctionCallExpression") :: (draw (id ++ [0]) f ++ [.edge id (id ++ [0]) "function"] ++
      drawArguments id 1 args)
  | .tern c t f =>
    .node id (.plain "TernaryExpression") :: (draw (id ++ [0]) c ++ draw (id ++ [1]) t ++ draw (id ++ [2]) f ++
      [.edge id (id ++ [0]) "condition", .edge id (id ++ [1]) "true case", .edge id (id ++ [2]) "false case"])
  | .not e => .node id (.type "UnaryExpression" "not") :: (draw (id ++ [0]) e ++ [.edge id (id ++ [0]) ""])
  | .neg e => .node id (.type "UnaryExpression" "uminus") :: (draw (id ++ [0]) e ++ [.edge id (id ++ [0]) ""])
/-- the members of an array or set, from the `n`-th on (ast.py 220-222) -/
def drawMembers (id : List Nat) (n : Nat) : List Expr → List DCmd
  | [] => []
  | x :: xs => draw (id ++ [n]) x ++ [.edge id (id ++ [n]) ""] ++ drawMembers id (n + 1) xs
/-- the arguments of a call, from the `n`-th on (ast.py 1138-1140) -/
def drawArguments (id : List Nat) (n : Nat) : List Expr → List DCmd
  | [] => []
  | x :: xs => draw (id ++ [n]) x ++ [.edge id (id ++ [n]) ("argument #" ++ toString n)] ++ drawArguments id (n + 1) xs
end

/-- `Statement.to_graphviz` (ast.py 1163-1168), and so `Rule.to_graphviz` (engine.py 659-669): the statement is at `[]`, its
expression at `[0]` and its comment, to which no edge is drawn, at `[1]`. -/
def drawRule (e : Expr) (comment : Option String) : List DCmd :=
  [.node [] (.plain "Statement")] ++ draw [0] e ++ [.edge [] [0] ""] ++
    (match comment with
      | some text => [.node [1] (.comment text)]
      | none => [])

end RE
