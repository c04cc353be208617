"""Writes lean/Verif/Audit.lean: for every theorem named in MANIFEST.json the axioms it depends on, checked by the build.

Needs a finished `lake build`."""
import json, os, re, subprocess, sys, tempfile
ROOT = os.path.abspath(os.path.join(os.path.dirname(os.path.abspath(__file__)), '..'))
LEAN = os.path.join(ROOT, 'lean')
OK = {'propext', 'Classical.choice', 'Quot.sound'}
imports = [l.strip() for l in open(os.path.join(LEAN, 'Verif.lean')) if l.startswith('import') and 'Audit' not in l]
thms = [t for c in json.load(open(os.path.join(ROOT, 'MANIFEST.json')))['claims'] for t in c['theorems']]
with tempfile.NamedTemporaryFile('w', suffix='.lean', delete=False) as f:
    f.write('\n'.join(imports) + '\n' + ''.join(f'#print axioms {t}\n' for t in thms))
r = subprocess.run(['lake', 'env', 'lean', f.name], cwd=LEAN, capture_output=True, text=True)
os.unlink(f.name)
out = re.sub(r'\s+', ' ', r.stdout)
found = {}
for m in re.finditer(r"'([^' ]+)' (?:depends on axioms: \[([^\]]*)\]|does not depend on any axioms)", out):
    found[m.group(1)] = [a.strip() for a in m.group(2).split(',')] if m.group(2) else []
missing = [t for t in thms if t not in found]
bad = [t for t in thms if not set(found.get(t, [])) <= OK]
if missing or bad:
    sys.exit(f'missing {missing} bad {bad}\n{r.stdout[-2000:]}{r.stderr[-2000:]}')
mods = [i for i in imports if '.Props.' in i]
with open(os.path.join(LEAN, 'Verif', 'Audit.lean'), 'w') as f:
    f.write('\n'.join(mods) + '\n')
    f.write('/-\nThe axioms of every theorem named in MANIFEST.json (generated by tools/gen_audit.py; the build checks each entry).\n-/\n')
    for t in thms:
        a = found[t]
        msg = f"'{t}' depends on axioms: [{', '.join(a)}]" if a else f"'{t}' does not depend on any axioms"
        f.write(f'\n/-- info: {msg} -/\n#guard_msgs (whitespace := lax) in #print axioms {t}\n')
cnt = {}
for t in thms:
    cnt[tuple(found[t])] = cnt.get(tuple(found[t]), 0) + 1
print(cnt)
