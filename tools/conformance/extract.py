"""Extract (schemas, source, expected output, has_error, status) from the crate's own test files into cases.json."""
import re, json, glob
def rust_str(s, i):
    """parse rust string literal at s[i]; returns (value, end)"""
    m = re.match(r'r(#*)"', s[i:])
    if m:
        h = m.group(1); j = i+len(m.group(0)); k = s.index('"'+h, j)
        return s[j:k], k+1+len(h)
    if s[i] != '"': return None
    out=[]; j=i+1
    while s[j] != '"':
        c=s[j]
        if c=='\\':
            d=s[j+1]
            if d=='n': out.append('\n'); j+=2
            elif d=='t': out.append('\t'); j+=2
            elif d=='r': out.append('\r'); j+=2
            elif d=='0': out.append('\0'); j+=2
            elif d=='u':
                k=s.index('}',j); out.append(chr(int(s[j+3:k],16))); j=k+1
            elif d=='\n':
                j+=2
                while s[j] in ' \t\n\r': j+=1
            else: out.append(d); j+=2
        else: out.append(c); j+=1
    return ''.join(out), j+1
th=open('/repo/src/test_helpers.rs').read()
consts={}
for m in re.finditer(r'pub const (\w+): &str = ', th):
    consts[m.group(1)]=rust_str(th, m.end())[0]
cases=[]; skipped=[]
files=sorted(glob.glob('/repo/src/bif/*_tests.rs'))+sorted(glob.glob('/repo/tests/test-*.rs'))
for f in files:
    s=open(f).read()
    lc=dict(consts)
    for m in re.finditer(r'const (\w+): &str = ', s):
        r=rust_str(s,m.end())
        if r: lc[m.group(1)]=r[0]
    fns=list(re.finditer(r'#\[test\](?:\s*#\[[^\]]*\])*\s*fn (\w+)\(\)', s))
    for n,m in enumerate(fns):
        body=s[m.end(): fns[n+1].start() if n+1<len(fns) else len(s)]
        name=f.split('/')[-1]+'::'+m.group(1)
        def arg(call):
            res=[]
            for mm in re.finditer(call+r'\(\s*', body):
                j=mm.end()
                if body[j]=='&': j+=1
                r=rust_str(body,j) if body[j] in 'r"' else None
                if r is None:
                    w=re.match(r'(\w+)',body[j:])
                    if w and w.group(1) in lc: res.append(lc[w.group(1)])
                    else:
                        # local let
                        w=w.group(1) if w else None
                        lm=re.search(r'let\s+(?:mut\s+)?%s(?:: &str)?\s*=\s*'%w, body) if w else None
                        rr=rust_str(body,lm.end()) if lm and body[lm.end()] in 'r"' else None
                        if rr: res.append(rr[0])
                        else: return None
                else: res.append(r[0])
            return res
        src=arg(r'\.set_src_str'); sch=arg(r'\.merge_schema_str')
        if not src or sch is None or len(src)!=1: skipped.append(name); continue
        exp=None
        mm=re.search(r'assert_eq!\(\s*result,\s*', body)
        if mm:
            r=rust_str(body,mm.end()) if body[mm.end()] in 'r"' else None
            if r: exp=r[0]
        he=None
        if re.search(r'assert!\(\s*!template\.has_error\(\)', body): he=False
        elif re.search(r'assert!\(\s*template\.has_error\(\)', body): he=True
        st={}
        for k in('code','text','param'):
            mm=re.search(r'assert_eq!\(\s*template\.get_status_%s\(\),\s*'%k, body)
            if mm:
                r=rust_str(body,mm.end()) if body[mm.end()] in '"r' else None
                if r: st[k]=r[0]
        if exp is None and he is None and not st: skipped.append(name); continue
        cases.append(dict(name=name, schemas=sch, src=src[0], once='render_once()' in body, exp=exp, err=he, panic='should_panic' in m.group(0), **st))
fs={}
for p in glob.glob('/repo/tests/*'):
    if p.endswith('.rs'): continue
    try: fs['tests/'+p.split('/')[-1]]=open(p).read()
    except Exception: pass
json.dump(dict(cases=cases, fs=fs), open('/tmp/conf/cases.json','w'))
print(len(cases), 'cases;', len(skipped), 'skipped'); print('\n'.join(skipped))
