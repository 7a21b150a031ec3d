#!/usr/bin/env python3
"""Rewrites the list of axioms per theorem at the end of DESIGN.md (after a build of lean/)."""
import subprocess, collections

SCRIPT = r'''import Verif
import Lean
open Lean Elab Command
run_cmd do
  let env ← getEnv
  let mut out := ""
  for (n, ci) in env.constants.map₁.toList do
    if let .str `Manul s := n then
      if s.length > 4 && s.startsWith "C" && (ci matches .thmInfo _) && (s.toList.getD 1 'x').isDigit then
        let ax ← liftCoreM (collectAxioms n)
        let l := (ax.toList.map toString).mergeSort
        out := out ++ s!"{s}\t" ++ " ".intercalate l ++ "\n"
  IO.FS.writeFile "/tmp/ax.tsv" out
'''

open('/tmp/axioms.lean', 'w').write(SCRIPT)
subprocess.run(['lake', 'env', 'lean', '/tmp/axioms.lean'], cwd='/verif/lean', check=True)
d = collections.defaultdict(list)
for l in open('/tmp/ax.tsv'):
    n, a = l.rstrip('\n').split('\t')
    d[a].append(n)
p = '/verif/DESIGN.md'
s = open(p).read().split('## Axioms per theorem')[0].rstrip('\n')
s += '\n\n## Axioms per theorem\n'
for a in sorted(d, key=lambda a: len(a.split())):
    s += '\n' + ('`' + '`, `'.join(a.split()) + '`' if a else 'None') + ':\n' + ', '.join(sorted(d[a])) + '.\n'
open(p, 'w').write(s)
