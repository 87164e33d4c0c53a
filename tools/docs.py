#!/usr/bin/env python3
"""Regenerate AXIOMS.txt and section 6 of DESIGN.md (run in /verif after `lake build`)."""
import json, os, re, subprocess, glob
root = os.path.dirname(os.path.dirname(os.path.abspath(__file__)))
m = json.load(open(f'{root}/MANIFEST.json'))
names = [t for c in m['claims'] for t in c['theorems']]
src = "import Verif\nopen Verif Verif.Spec Verif.Sigma\n" + ''.join(f"#print axioms {n}\n" for n in names)
open('/tmp/Ax.lean', 'w').write(src)
out = subprocess.run(['lake', 'env', 'lean', '/tmp/Ax.lean'], cwd=f'{root}/lean', capture_output=True, text=True).stdout
lines = []
for x in re.findall(r"'([^']+)' (?:depends on axioms: \[([^\]]*)\]|does not depend on any axioms)", out):
    lines.append(f"{x[0]}: {' '.join(x[1].replace(',', ' ').split()) or 'none'}\n")
assert len(lines) == len(names), (len(lines), len(names), out[:500])
open(f'{root}/AXIOMS.txt', 'w').write(''.join(lines))
rows = []
for f in sorted(glob.glob(f'{root}/lean/Verif/Model/*.lean')):
    s = open(f).read()
    files = set()
    for a in re.findall(r'[\w\-/]*\{[\w,/]+\}\.rs', s):
        pre, alts = re.match(r'([\w\-/]*)\{([\w,/]+)\}\.rs', a).groups()
        files |= {f'{pre}{x}.rs' for x in alts.split(',')}
    files |= {x for x in re.findall(r'[\w\-/]+\.rs', s) if not x.startswith(('/', '-'))}
    # keep the longest form of each path
    files = sorted(x for x in files if not any(y != x and y.endswith('/' + x) for y in files))
    rows.append(f"| {os.path.basename(f)[:-5]} | {', '.join(files)} |\n")
sec = open(f'{root}/tools/not_modelled.md').read()
d = open(f'{root}/DESIGN.md').read()
i = d.find('\n## 6. ')
if i >= 0:
    d = d[:i]
d = d.rstrip() + '\n\n## 6. What is modelled and what is not\n\n' \
    'Each definition cites its lines; this table lists the Rust files each module of the model cites.\n' \
    '`AXIOMS.txt` lists the axioms of every theorem of the manifest (output of `#print axioms`; regenerate with `tools/docs.py`).\n\n' \
    '| module | Rust files |\n|---|---|\n' + ''.join(rows) + '\n' + sec
open(f'{root}/DESIGN.md', 'w').write(d)
