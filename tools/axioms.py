#!/usr/bin/env python3
"""Writes the axioms of every property theorem into DESIGN.md (between the markers). Needs a finished `lake build`."""
import subprocess, re, collections
SRC = r'''
import Verif
import Lean
open Lean Elab Command
run_cmd do
  let env ← liftCoreM getEnv
  let mut out : Array (String × String) := #[]
  for (n, ci) in env.constants.map₁.toList do
    if n.getRoot == `Pcie then
      match n with
      | .str _ s =>
        if s.startsWith "C" && ci matches .thmInfo _ && (s.toList.getD 1 'x').isDigit && (s.toList.getD 2 'x').isDigit then
          let ax ← liftCoreM (collectAxioms n)
          let l := (ax.toList.map toString).mergeSort (· ≤ ·)
          out := out.push (n.toString, String.intercalate ", " l)
      | _ => pure ()
  for (n, a) in out do IO.println s!"AX {n}|{a}"
'''
r = subprocess.run(['lake', 'env', 'lean', '--stdin'], cwd='/verif/lean', input=SRC, capture_output=True, text=True)
g = collections.defaultdict(list)
for l in r.stdout.splitlines():
    if l.startswith('AX '):
        n, a = l[3:].split('|')
        g[a or 'none'].append(n.replace('Pcie.', '', 1))
assert g, r.stdout + r.stderr
text = ''
for a in sorted(g, key=lambda a: (a.count(','), a)):
    text += f'* Axioms: **{a}** – {len(g[a])} theorems: ' + ', '.join('`%s`' % n for n in sorted(g[a])) + '\n'
p = '/verif/DESIGN.md'
s = open(p).read()
s = re.sub(r'(<!-- axioms -->\n).*?(<!-- /axioms -->)', lambda m: m.group(1) + text + m.group(2), s, flags=re.S)
open(p, 'w').write(s)
print({a: len(v) for a, v in g.items()})
