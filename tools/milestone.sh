#!/bin/sh
# regenerate lean/Verif.lean and MANIFEST.json from the sources
cd /verif
python3 - <<'P'
import os
d='/verif/lean/Verif/Props'
L=["import Verif.Model.Template"]
L+=["import Verif.Props."+f[:-5] for f in sorted(os.listdir(d)) if f.endswith('.lean')]
open('/verif/lean/Verif.lean','w').write("\n".join(L)+"\n")
P
python3 tools/gen_props.py && python3 tools/gen_manifest.py
python3 tools/gen_design.py
