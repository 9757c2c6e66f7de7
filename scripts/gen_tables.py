#!/usr/bin/env python3
"""Write lean/Verif/Model/Tables.lean from /repo/lib/rule_engine/parser/parsetab.py.

The data is copied without interpretation: the action table, the goto table and the left side and
length of every production."""
import importlib.util, sys
sys.dont_write_bytecode = True
spec = importlib.util.spec_from_file_location('pt', '/repo/lib/rule_engine/parser/parsetab.py')
m = importlib.util.module_from_spec(spec)
spec.loader.exec_module(m)
act, goto, prods = m._lr_action, m._lr_goto, m._lr_productions
kinds = sorted({k for s in act.values() for k in s if k != '$end'})
nts = ['statement', 'expression', 'object', 'ary_members', 'map_member', 'map_members']
ntn = dict(statement='statement', expression='expression', object='object', ary_members='aryMembers',
    map_member='mapMember', map_members='mapMembers')
K = lambda k: '.END' if k == '$end' else '.' + k
states = sorted(act)
assert states == list(range(len(states)))
out = []
w = out.append
w('/-!\n# The LALR tables\n\nGenerated by `scripts/gen_tables.py` from parser/parsetab.py: do not edit.\n-/\n')
w('namespace RE\n')
w('/-- Terminal symbols of the grammar (parser/__init__.py 108-112) and the end marker `$end`. -/')
w('inductive Kind where')
line = '  '
for k in kinds + ['END']:
    if len(line) + len(k) > 95:
        w(line.rstrip()); line = '  '
    line += '| ' + k + ' '
w(line.rstrip())
w('  deriving DecidableEq, Repr, Inhabited\n')
w('/-- every terminal (parser/__init__.py 108-112) -/')
w('def Kind.all : List Kind :=')
line = '  ['
for i, k in enumerate(kinds + ['END']):
    s = '.' + k + (', ' if i < len(kinds) else ']')
    if len(line) + len(s) > 98:
        w(line.rstrip()); line = '   '
    line += s
w(line + '\n')
w('/-- Nonterminal symbols of the grammar (parser/__init__.py 255-564). -/')
w('inductive NonTerm where')
w('  | statement | expression | object | aryMembers | mapMember | mapMembers | start')
w('  deriving DecidableEq, Repr, Inhabited\n')
w('/-- An entry of the action table: a positive number is a shift, a negative one a reduction, zero')
w('accepts.  A missing entry and the entry `None` are both errors (parser/parsetab.py 11-18). -/')
w('inductive LRAct where\n  | shift (q : Nat)\n  | reduce (p : Nat)\n  | accept\n  deriving DecidableEq, Repr, Inhabited\n')
w('/-- `_lr_action` (parser/parsetab.py 11-18): one row for each state. -/')
w('def actionRows : List (List (Kind × LRAct)) := [')
def A(v):
    return '.accept' if v == 0 else ('.shift %d' % v if v > 0 else '.reduce %d' % -v)
for q in states:
    items = [(k, v) for k, v in sorted(act[q].items()) if v is not None]
    line = '  ['
    for i, (k, v) in enumerate(items):
        s = '(%s, %s)' % (K(k), A(v)) + (', ' if i < len(items) - 1 else ']')
        if len(line) + len(s) > 98:
            w(line.rstrip()); line = '   '
        line += s
    w(line + (',' if q != states[-1] else ']') + '  -- state %d' % q)
w('')
w('/-- `_lr_goto` (parser/parsetab.py 20-27): one row for each state. -/')
w('def gotoRows : List (List (NonTerm × Nat)) := [')
for q in states:
    items = sorted(goto.get(q, {}).items())
    w('  [' + ', '.join('(.%s, %d)' % (ntn[k], v) for k, v in items) + ']' + (',' if q != states[-1] else ']'))
w('')
w('/-- left side and length of every production (parser/parsetab.py 28-98) -/')
w('def productions : List (NonTerm × Nat) := [')
for i, p in enumerate(prods):
    lhs = 'start' if p[1] == "S'" else ntn[p[1]]
    w('  (.%s, %d)%s  -- %d: %s' % (lhs, p[2], ',' if i < len(prods) - 1 else ']', i, p[0]))
w('\nend RE')
open('/verif/lean/Verif/Model/Tables.lean', 'w').write('\n'.join(out) + '\n')
