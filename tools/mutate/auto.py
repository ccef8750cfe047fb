#!/usr/bin/env python3
"""Systematic mutants of the model: every condition, connective, text constant, number and effect of every definition, one
at a time (a sample, by definition).  A mutant is elaborated until the first module with an error; one that goes through
every module without an error survives, and shows a part of the model that no theorem speaks about.
usage: auto.py scratch-dir seed count   (count -1: the survivors once more, against the present theorems)"""
import json, os, random, re, shutil, subprocess, sys, glob
from concurrent.futures import ThreadPoolExecutor, wait, FIRST_COMPLETED
sys.argv, ARGS = sys.argv[:2], sys.argv[2:]
HERE = os.path.dirname(os.path.abspath(__file__))
src = open(HERE + '/run.py').read().rsplit('main()', 1)[0]
__file__ = HERE + '/run.py'
exec(src)
SEED, COUNT = int(ARGS[0]), int(ARGS[1])
OUT = ROOT + '/seeded/AUTO.jsonl'

def defs(text):
    """(name, start, end) of the definitions"""
    ms = list(re.finditer(r'^(?:@\[.*\]\s*)?(?:partial )?(?:private )?(def|abbrev|instance|structure|inductive|mutual|end|theorem|variable|/--)(?: (\S+))?', text, re.M))
    res = []
    for i, m in enumerate(ms):
        if m.group(1) == 'def':
            end = ms[i+1].start() if i+1 < len(ms) else len(text)
            res.append((m.group(2), m.start(), end))
    return res

def mutants(text, a, b):
    t = text[a:b]
    head = t.find(':=') if ':=' in t else t.find('\n')
    out = []
    def add(i, j, new, what):
        if i > head and not t[t.rfind('\n', 0, i)+1:].lstrip().startswith(('/-', '--')): out.append((a+i, a+j, new, what))
    for m in re.finditer(r'\bif (?!let\b)(.+?) then\b', t):
        c = m.group(1)
        if re.match(r'\w+ : ', c): continue
        add(m.start(1), m.end(1), f'¬({c})', 'negate condition')
        add(m.start(1), m.end(1), f'({c}) ∨ (0:Nat) = 0', 'condition always true')
        add(m.start(1), m.end(1), f'({c}) ∧ (0:Nat) = 1', 'condition always false')
    for m in re.finditer(r' && ', t): add(m.start(), m.end(), ' || ', '&& to ||')
    for m in re.finditer(r' \|\| ', t): add(m.start(), m.end(), ' && ', '|| to &&')
    for m in re.finditer(r' ∧ ', t): add(m.start(), m.end(), ' ∨ ', 'and to or')
    for m in re.finditer(r' ∨ ', t): add(m.start(), m.end(), ' ∧ ', 'or to and')
    for m in re.finditer(r'c!"([^"]+)"', t): add(m.start(1), m.end(1), m.group(1) + 'Q', 'text constant')
    for m in re.finditer(r"(?<![\w!\"'])(\d+)(?![\w\"'])", t): add(m.start(1), m.end(1), str(int(m.group(1)) + 1), 'number + 1')
    for m in re.finditer(r'(?<=[ (])(true|false)(?=[ )\n,])', t): add(m.start(), m.end(), {'true': 'false', 'false': 'true'}[m.group(1)], 'flip constant')
    for m in re.finditer(r'\n +((?:perform|setOut|setCode|bifError|setLast\w*|denyMods|denyFlags|denyFlgParams|modB|outCode)\b[^\n]*)(?=\n)', t):
        add(m.start(1), m.end(1), 'pure ()', 'drop effect')
    for m in re.finditer(r', (\w+ := [^,{}]+)(?=[,}])', t): add(m.start(), m.end(1), '', 'drop update')
    for m in re.finditer(r'\.(trim|trimStart|trimEnd)\b|\b(trim|trimStart|trimEnd) (?=[\(\w])', t):
        if m.group(2): add(m.start(), m.end(), 'id ', 'no trim')
    for m in re.finditer(r' (<|≤|>|≥) ', t):
        add(m.start(1), m.end(1), {'<': '≤', '≤': '<', '>': '≥', '≥': '>'}[m.group(1)], 'boundary')
    for m in re.finditer(r'(?<=[ (!])!(?=\w)', t): add(m.start(), m.end(), '', 'drop not')
    return out

def quick(lean, start):
    mods = modules(lean)
    dirty = set(start); changed = True
    while changed:
        changed = False
        for m, d in mods.items():
            if m not in dirty and any(x in dirty for x in d): dirty.add(m); changed = True
    done = set(mods) - dirty
    weight = {m: os.path.getsize(lean + '/' + m.replace('.', '/') + '.lean') for m in mods}
    procs, todo, bad = {}, set(dirty), None
    def rank(m): return (0 if '.Model.' in m else 1, weight[m])
    import time
    while (todo or procs) and bad is None:
        for m in sorted(todo, key=rank):
            if len(procs) >= PAR: break
            if all(d in done for d in mods[m]):
                f = m.replace('.', '/') + '.lean'
                out = '.lake/build/lib/lean/' + m.replace('.', '/') + '.olean'
                p = subprocess.Popen(f'exec timeout 900 lake env lean -M 4500 --run ../Compile.lean {f} {m} {out}', shell=True, cwd=lean,
                                     stdout=subprocess.PIPE, stderr=subprocess.STDOUT, text=True, preexec_fn=os.setsid)
                procs[m] = p; todo.discard(m)
        time.sleep(0.1)
        for m, p in list(procs.items()):
            if p.poll() is not None:
                o = p.stdout.read(); del procs[m]; done.add(m)
                es = re.findall(r'ERR (\S+):(\d+)', o)
                if es or p.returncode != 0: bad = (m, es[:3]); break
    for p in procs.values():
        try: os.killpg(p.pid, 9)
        except ProcessLookupError: pass
        p.wait()
    return bad

def go():
    rnd = random.Random(SEED)
    seen = set()
    if os.path.exists(OUT):
        for l in open(OUT):
            x = json.loads(l); seen.add((x['file'], x['definition'], x['old'], x['new'], x['line']))
    pool = {}
    for f in sorted(glob.glob(ROOT + '/lean/Verif/Model/*.lean')):
        text = open(f).read(); name = os.path.basename(f)[:-5]
        for d, a, b in defs(text):
            for (i, j, new, what) in mutants(text, a, b):
                ls = text.rfind('\n', 0, i) + 1; le = text.find('\n', j)
                key = (name, d, text[ls:le], text[ls:i] + new + text[j:le], text.count('\n', 0, i) + 1)
                if key not in seen: pool.setdefault((name, d), []).append((i, j, new, what, key))
    print('definitions', len(pool), 'mutants', sum(map(len, pool.values())), flush=True)
    if COUNT == 0: return
    lean = prepare()
    e = build(lean); print('baseline', e, flush=True)
    snap = SCR + '/base'; shutil.copytree(lean + '/.lake/build', snap)
    if COUNT < 0:
        L = [json.loads(l) for l in open(OUT)]
        for r in L:
            if r['result'] != 'survived' or 'again' in r: continue
            f = lean + '/Verif/Model/' + r['file'] + '.lean'
            s = open(f).read()
            ds = [(a, b) for d, a, b in defs(s) if d == r['definition']]
            if not ds or r['old'] not in s[ds[0][0]:ds[0][1]]:
                print('gone', r['file'], r['definition'], r['old'], flush=True); continue
            i = s.index(r['old'], ds[0][0])
            open(f, 'w').write(s[:i] + r['new'] + s[i+len(r['old']):])
            bad = quick(lean, {'Verif.Model.' + r['file']})
            open(f, 'w').write(s)
            subprocess.run(['rsync', '-a', '--delete', snap + '/', lean + '/.lake/build/']) if shutil.which('rsync') else (shutil.rmtree(lean + '/.lake/build'), shutil.copytree(snap, lean + '/.lake/build'))
            r['again'] = 'survived' if bad is None else 'caught by ' + bad[0]
            print(r['file'], r['definition'], r['new'].strip()[:100], r['again'], flush=True)
            M = [json.loads(l) for l in open(OUT)]
            for x in M:
                if (x['file'], x['definition'], x['old'], x['new'], x['line']) == (r['file'], r['definition'], r['old'], r['new'], r['line']): x['again'] = r['again']
            open(OUT, 'w').write(''.join(json.dumps(x, ensure_ascii=False) + '\n' for x in M))
        return
    n = 0
    keys = list(pool); rnd.shuffle(keys)
    while n < COUNT and keys:
        for k in list(keys):
            if n >= COUNT: break
            ms = pool[k]
            if not ms: keys.remove(k); continue
            i, j, new, what, key = ms.pop(rnd.randrange(len(ms)))
            f = lean + '/Verif/Model/' + k[0] + '.lean'
            s = open(f).read()
            open(f, 'w').write(s[:i] + new + s[j:])
            bad = quick(lean, {'Verif.Model.' + k[0]})
            open(f, 'w').write(s)
            subprocess.run(['rsync', '-a', '--delete', snap + '/', lean + '/.lake/build/']) if shutil.which('rsync') else (shutil.rmtree(lean + '/.lake/build'), shutil.copytree(snap, lean + '/.lake/build'))
            if bad and '.Model.' in bad[0]: continue      # not a program
            n += 1
            r = {'file': k[0], 'definition': k[1], 'line': key[4], 'edit': what, 'old': key[2], 'new': key[3],
                 'result': 'survived' if bad is None else 'caught', 'by': bad[0] if bad else None}
            open(OUT, 'a').write(json.dumps(r, ensure_ascii=False) + '\n')
            print(n, r['result'], k, what, '|', key[3].strip()[:120], '|', r['by'], flush=True)
go()
