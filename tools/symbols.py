#!/usr/bin/env python3
"""Writes lean/Verif/Model/SymbolTable.lean from latex_maps/_latex2unicode_map.py (read as text, not run)."""
import ast
src = open('/repo/latex2json/latex_maps/_latex2unicode_map.py').read()
D = None
for n in ast.parse(src).body:
    if isinstance(n, (ast.Assign, ast.AnnAssign)):
        ks = [ast.literal_eval(k) for k in n.value.keys]
        vs = [ast.literal_eval(v) for v in n.value.values]
        lines = (n.lineno, n.end_lineno)
assert len(set(ks)) == len(ks)
def q(s):
    r = ''
    for c in s:
        if c in '\\"': r += '\\' + c
        elif 32 <= ord(c) < 127: r += c
        else: raise ValueError(s)
    return 'c!"' + r + '"'
def entry(k, v):
    if isinstance(v, int): return '(%s, [%d])' % (q(k), v)
    return '(%s, [%s])' % (q(k), ', '.join(str(ord(c)) for c in v))
out = ['import Lean.Elab.Term', 'import Verif.Model.PyStr',
 '/-! The table of latex_maps/_latex2unicode_map.py:%d-%d, entry by entry, in its order; written by tools/symbols.py. The values are code points. -/' % lines, 'namespace L2J.Sym', '', '/-- The characters of a text. -/', 'macro "c!" s:str : term => do', '  let cs := (s.getString.toList.map fun c => Lean.Syntax.mkCharLit c).toArray', '  `(([$cs,*] : List Char))', '']
N = 120
parts = []
for i in range(0, len(ks), N):
    name = 'entries%d' % (i // N)
    parts.append(name)
    out.append('/-- _latex2unicode_map.py, entries %d to %d. -/' % (i + 1, min(i + N, len(ks))))
    out.append('def %s : List (Str × List Nat) := [' % name)
    es = [entry(k, v) for k, v in zip(ks[i:i + N], vs[i:i + N])]
    for j in range(0, len(es), 6):
        out.append('  ' + ', '.join(es[j:j + 6]) + (',' if j + 6 < len(es) else ']'))
    out.append('')
out.append('/-- `latex2unicode`. -/')
out.append('def entries : List (Str × List Nat) :=')
out.append('  ' + ' ++ '.join(parts))
out.append('')
out.append('end L2J.Sym')
open('/verif/lean/Verif/Model/SymbolTable.lean', 'w').write('\n'.join(out) + '\n')
