#!/usr/bin/env python3
"""Writes AXIOMS.md: the axioms every property theorem depends on."""
import json,subprocess,re
m=json.load(open('/verif/MANIFEST.json'))
ths=[t for c in m['claims'] for t in c['theorems']]
open('/tmp/ax.lean','w').write("import Verif\n"+"".join(f"#print axioms {t}\n" for t in ths))
o=subprocess.run(["lake","env","lean","/tmp/ax.lean"],cwd="/verif/lean",capture_output=True,text=True).stdout
o=re.sub(r"\n\s+"," ",o)
L=["# Axioms of the property theorems","","Output of `#print axioms`, by `tools/axioms.py`.","","| theorem | axioms |","|---|---|"]
for l in o.splitlines():
    a=re.match(r"'(\S+)' depends on axioms: \[(.*)\]",l); b=re.match(r"'(\S+)' does not depend",l)
    if a: L.append(f"| {a.group(1)} | {a.group(2)} |")
    elif b: L.append(f"| {b.group(1)} | none |")
    else: raise SystemExit("unexpected: "+l)
assert len(L)==6+len(ths)
open('/verif/AXIOMS.md','w').write("\n".join(L)+"\n")
