#!/bin/sh
# writes AXIOMS.txt: the axioms each theorem of MANIFEST.json depends on (needs a finished lake build)
cd /verif && python3 - <<'P'
import json, subprocess
m = json.load(open('MANIFEST.json'))
t = sorted({x for c in m['claims'] for x in c['theorems']})
open('/tmp/ax_names.txt', 'w').write('\n'.join(t) + '\n')
open('/tmp/Ax.lean', 'w').write('''import Lean
import Verif
open Lean in
#eval show CoreM Unit from do
  for n in (← IO.FS.lines "/tmp/ax_names.txt") do
    IO.println s!"{n}: {(← collectAxioms n.toName).toList}"
''')
out = subprocess.run('lake env lean /tmp/Ax.lean', shell=True, cwd='lean', stdout=subprocess.PIPE, text=True).stdout
open('AXIOMS.txt', 'w').write(out)
P
