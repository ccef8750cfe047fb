#!/usr/bin/env python3
"""Mutation driver.  For every mutation in mutations.json not yet in the log:
edit one definition of the model in a scratch copy (outside /verif), elaborate every
module again (a module with errors is still written out, its broken proofs replaced by
an error placeholder), and list the property theorems that no longer hold or that
depend on something that no longer holds.
usage: run.py [scratch dir] [id ...]"""
import json, os, re, shutil, subprocess, sys, glob
from concurrent.futures import ThreadPoolExecutor, wait, FIRST_COMPLETED

HERE = os.path.dirname(os.path.abspath(__file__))
ROOT = os.path.dirname(os.path.dirname(HERE))
SCR = sys.argv[1] if len(sys.argv) > 1 else '/tmp/mut'
ONLY = sys.argv[2:]
PAR = int(os.environ.get('PAR', '2'))

COMPILE = r'''
import Lean
open Lean Elab
unsafe def main (args : List String) : IO UInt32 := do
  let [file, mod, out] := args | return 2
  enableInitializersExecution
  initSearchPath (← findSysroot) [".lake/build/lib/lean"]
  let input ← IO.FS.readFile file
  let ictx := Parser.mkInputContext input file
  let (header, pst, msgs) ← Parser.parseHeader ictx
  let (env, msgs) ← processHeader header {} msgs ictx
  let env := env.setMainModule mod.toName
  let opts : Options := maxHeartbeats.set {} 400000
  let st := Command.mkState env msgs opts
  let st ← IO.processCommands ictx pst st
  for m in st.commandState.messages.toList do
    if m.severity == .error then
      IO.println s!"ERR {file}:{m.pos.line}"
  IO.FS.createDirAll (System.FilePath.mk out).parent.get!
  writeModule st.commandState.env out
  return 0
'''

CHECK = r'''
open Lean in
#eval show CoreM Unit from do
  for n in (← IO.FS.lines "../thms.txt") do
    let nm := n.toName
    if (← getEnv).contains nm then
      if (← collectAxioms nm).contains ``sorryAx then IO.println s!"BAD {n}"
    else IO.println s!"MISSING {n}"
'''

def sh(cmd, cwd, timeout=3000):
    return subprocess.run(cmd, cwd=cwd, shell=True, stdout=subprocess.PIPE,
                          stderr=subprocess.STDOUT, text=True, timeout=timeout)

def modules(lean):
    mods = {}
    for f in glob.glob(lean + '/Verif/*/*.lean'):
        m = os.path.relpath(f, lean)[:-5].replace('/', '.')
        deps = re.findall(r'^import (Verif\.\S+)', open(f).read(), re.M)
        mods[m] = deps
    return mods

def closure(mods, want):
    todo, seen = list(want), set()
    while todo:
        m = todo.pop()
        if m not in seen:
            seen.add(m); todo += mods[m]
    return seen

def owners(lean):
    """manifest theorem -> module"""
    man = json.load(open(ROOT + '/MANIFEST.json'))
    names = {t for c in man['claims'] for t in c['theorems']}
    own = {}
    for f in glob.glob(lean + '/Verif/Props/*.lean'):
        for t in re.findall(r'^theorem (\S+)', open(f).read(), re.M):
            for ns in ('Nts.', 'Nts.Fs.', 'Nts.Fcgi.', 'Nts.Py.', 'Nts.Clean.', 'Nts.B.', 'Nts.Rm.', 'Nts.Js.'):
                if ns + t in names: own[ns + t] = os.path.relpath(f, lean)[:-5].replace('/', '.')
    return own

def prop(t): return t.split('.')[-1].split('_')[0]

def build(lean, start=None, want=None):
    """start: set of modules that changed (None = all); want: modules needed (None = all)"""
    mods = modules(lean)
    dirty = set(mods) if start is None else set(start)
    changed = True
    while changed:
        changed = False
        for m, d in mods.items():
            if m not in dirty and any(x in dirty for x in d):
                dirty.add(m); changed = True
    errs = []
    if want is not None: dirty &= closure(mods, want)
    done = set(mods) - dirty
    running = {}
    def one(m):
        f = m.replace('.', '/') + '.lean'
        out = '.lake/build/lib/lean/' + m.replace('.', '/') + '.olean'
        try:
            r = sh(f'timeout 900 lake env lean -M 4500 --run ../Compile.lean {f} {m} {out}', lean)
            es = re.findall(r'ERR (\S+):(\d+)', r.stdout)
            if r.returncode != 0 and not es:
                es = [(f, '0')]
                print('!!', m, r.returncode, r.stdout[-300:])
            return es
        except subprocess.TimeoutExpired:
            return [(f, '0')]
    with ThreadPoolExecutor(PAR) as ex:
        todo = set(dirty)
        while todo or running:
            for m in sorted(todo):
                if all(d in done for d in mods[m]):
                    running[ex.submit(one, m)] = m
                    todo.discard(m)
            fin, _ = wait(list(running), return_when=FIRST_COMPLETED)
            for x in fin:
                done.add(running.pop(x)); errs += x.result()
    return errs

def prepare():
    lean = SCR + '/lean'
    if os.path.exists(SCR): shutil.rmtree(SCR)
    os.makedirs(SCR)
    shutil.copytree(ROOT + '/lean', lean, ignore=shutil.ignore_patterns('.lake'))
    if os.path.exists(ROOT + '/lean/.lake/packages'):
        os.makedirs(lean + '/.lake', exist_ok=True)
        os.symlink(ROOT + '/lean/.lake/packages', lean + '/.lake/packages')
    for f in glob.glob(lean + '/Verif/*/*.lean'):
        s = open(f).read()
        # concrete runs: not what is being tested, and costly when they fail
        s2 = '\n\n'.join(re.sub(r'\bdecide \+kernel\b', 'sor' + 'ry', c) if 'Sample.' in c else c
                         for c in s.split('\n\n'))
        if s2 != s: open(f, 'w').write(s2)
    open(SCR + '/Compile.lean', 'w').write(COMPILE)
    return lean

def check(lean, want=None):
    own = owners(lean)
    mods = sorted(set(own.values()) if want is None else want)
    open(SCR + '/thms.txt', 'w').write('\n'.join(sorted(t for t in own if own[t] in mods)) + '\n')
    open(SCR + '/Check.lean', 'w').write('import Lean\n' + ''.join(f'import {m}\n' for m in mods) + CHECK)
    r = sh('lake env lean ../Check.lean', lean)
    bad = re.findall(r'^(BAD|MISSING) (\S+)', r.stdout, re.M)
    if r.returncode != 0: print('check failed', r.stdout[-500:])
    return {n for _, n in bad}

def main():
    muts = json.load(open(HERE + '/mutations.json'))
    log = ROOT + '/seeded/LOG.jsonl'
    seen = {json.loads(l)['id'] for l in open(log)} if os.path.exists(log) else set()
    todo = [m for m in muts if (m['id'] in ONLY if ONLY else m['id'] not in seen)]
    for m in todo:      # check every edit applies before spending time
        s = open(ROOT + '/lean/Verif/Model/' + m['file'] + '.lean').read()
        if s.count(m['old']) != 1:
            print('edit does not apply once:', m['id'], s.count(m['old'])); return
    lean = prepare()
    snap = SCR + '/base'
    e = build(lean)
    base = check(lean)
    print('baseline errors', e, 'baseline sorried', sorted(base), flush=True)
    shutil.copytree(lean + '/.lake/build', snap)
    for m in todo:
        f = lean + '/Verif/Model/' + m['file'] + '.lean'
        s = open(f).read()
        open(f, 'w').write(s.replace(m['old'], m['new']))
        want = {o for t, o in owners(lean).items() if prop(t) in m['breaks']} or None
        errs = build(lean, {'Verif.Model.' + m['file']}, want)
        modelerr = [x for x in errs if '/Model/' in x[0]]
        bad = sorted(check(lean, want) - base)
        open(f, 'w').write(s)
        shutil.rmtree(lean + '/.lake/build')
        shutil.copytree(snap, lean + '/.lake/build')
        claims = m['breaks']
        hit = sorted({prop(b) for b in bad})
        entry = {'id': m['id'], 'definition': m['def'], 'edit': m['edit'],
                 'old': m['old'], 'new': m['new'],
                 'claim': m['claim'], 'properties': claims,
                 'theorems_failed': bad, 'modules_checked': sorted(want) if want else 'all',
                 'properties_hit': hit,
                 'model_elaborates': not modelerr,
                 'survivors': sorted(set(claims) - set(hit)),
                 'tightened': m.get('tightened', [])}
        print(m['id'], 'MODEL-ERR' if modelerr else '', 'hit', hit, 'SURVIVED' if entry['survivors'] else '', entry['survivors'], flush=True)
        if not modelerr:
            with open(log, 'a') as g: g.write(json.dumps(entry) + '\n')
main()
