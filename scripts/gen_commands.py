#!/usr/bin/env python3
"""Transcribe the command tables of /repo/go/builtin_commands.go into Lean.

Usage: gen_commands.py /repo/go/builtin_commands.go > lean/Verif/Model/Commands.lean
"""
import re, sys
src = open(sys.argv[1]).read().split('\n')
tables, cur = {}, None
for n, line in enumerate(src, 1):
    m = re.match(r'var (\w+) = \[\]\*Cmd\{', line)
    if m:
        cur = m.group(1); tables[cur] = [n, []]; continue
    if line == '}':
        tables[cur].append(n); cur = None; continue
    m = re.match(r'\s*\{flags: "([^"]*)", minlen: (\d+), name: ("(?:[^"\\]|\\.)*"), parser: "(\w+)"\},$', line)
    if cur:
        assert m, line
        tables[cur][1].append(m.groups())
flags = sorted({f for t in tables.values() for e in t[1] for f in e[0].split('|') if f})
print('''/-
Generated by scripts/gen_commands.py from go/builtin_commands.go; one entry per entry of the Go
table, in the same order.
-/
import Verif.Model.Basic

namespace Viml

/-- The words that occur in the `flags` strings of go/builtin_commands.go, and `USERCMD`
(go/vimlparser.go:864).  Simplification: a flags string such as `"RANGE|BANG"` is the list of its
words; the code only ever tests `\\bWORD\\b` on it. -/
inductive Flag''')
print('  | ' + ' | '.join(flags + ['USERCMD']))
print('''deriving DecidableEq, Repr, Inhabited

/-- `Cmd`, go/type.go:35-40. -/
structure Cmd where
  name : Str
  minlen : Nat
  flags : List Flag
  parser : Str
deriving DecidableEq, Repr, Inhabited
''')
def entry(e):
    fl = ', '.join('.' + f for f in e[0].split('|') if f)
    return '  ⟨cs!%s, %s, [%s], cs!"%s"⟩' % (e[2], e[1], fl, e[3])
lean = {'neovim_additional_commands': 'neovimAdditionalCommands', 'neovim_removed_commands': 'neovimRemovedCommands', 'builtin_commands': 'builtinCommands'}
for name, (a, es, b) in tables.items():
    if len(es) < 50:
        print('/-- go/builtin_commands.go:%d-%d `%s` -/' % (a, b, name))
        print('def %s : List Cmd := [\n%s]\n' % (lean[name], ',\n'.join(map(entry, es))))
    else:
        parts = []
        for i in range(0, len(es), 60):
            p = '%s%d' % (lean[name], i // 60)
            parts.append(p)
            print('/-- go/builtin_commands.go:%d-%d -/' % (a + 1 + i, a + min(i + 60, len(es))))
            print('def %s : List Cmd := [\n%s]\n' % (p, ',\n'.join(map(entry, es[i:i + 60]))))
        print('/-- go/builtin_commands.go:%d-%d `%s` -/' % (a, b, name))
        print('def %s : List Cmd :=\n  %s\n' % (lean[name], ' ++\n  '.join(parts)))
print('end Viml')
