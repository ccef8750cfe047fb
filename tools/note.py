#!/usr/bin/env python3
# note.py ID "text" [ID "text" ...]: set notes for the manifest
import json,sys
p='/verif/tools/notes.json'
d=json.load(open(p))
a=sys.argv[1:]
for i in range(0,len(a),2): d[a[i]]=a[i+1]
open(p,'w').write("{\n"+",\n".join(json.dumps(k)+": "+json.dumps(d[k],ensure_ascii=False) for k in d)+"\n}\n")
