"""Mutation testing of the theorems.

usage: mutate.py <mutations.json> [first-id ...]
Each mutation: {"id","file","definition","old","new","edit","breaks"}.  The Lean project is copied to a scratch directory,
one textual edit is applied to the model, the project is rebuilt, and the theorems containing errors are recorded
(theorems in modules that could not be built because an import failed are listed as "blocked")."""
import json, os, re, shutil, subprocess, sys
ROOT = os.path.abspath(os.path.join(os.path.dirname(os.path.abspath(__file__)), '..'))
SCR = os.environ.get('MUT_SCRATCH', '/tmp/mut')
LOG = os.path.join(ROOT, 'seeded', 'LOG.jsonl')

def enclosing(path, line):
    name = None
    for i, l in enumerate(open(path), 1):
        if i > line:
            break
        m = re.match(r'(?:private\s+|protected\s+|@\[\S*\]\s*)*(theorem|lemma|def|abbrev|example|instance|structure|inductive)\s*(\S*)', l)
        if m:
            name = m.group(2) if m.group(1) not in ('example',) else f'example@{i}'
    return name

def main():
    muts = json.load(open(sys.argv[1]))
    want = set(sys.argv[2:])
    done = set()
    if os.path.exists(LOG):
        done = {json.loads(l).get('id') for l in open(LOG)}
    os.makedirs(SCR, exist_ok=True)
    for mu in muts:
        if want and mu['id'] not in want:
            continue
        if not want and mu['id'] in done:
            continue
        shutil.rmtree(SCR + '/lean', ignore_errors=True)
        subprocess.run(['cp', '-a', ROOT + '/lean', SCR + '/lean'], check=True)
        # the axiom audit is not a theorem
        root = SCR + '/lean/Verif.lean'
        rs = open(root).read().replace('import Verif.Audit\n', '')
        open(root, 'w').write(rs)
        f = os.path.join(SCR, 'lean', mu['file'])
        s = open(f).read()
        if s.count(mu['old']) < 1:
            print('NOT FOUND', mu['id']); continue
        n = mu.get('nth', 0)
        parts = s.split(mu['old'])
        s2 = mu['old'].join(parts[:n + 1]) + mu['new'] + mu['old'].join(parts[n + 1:])
        open(f, 'w').write(s2)
        r = subprocess.run(['lake', 'build'], cwd=SCR + '/lean', capture_output=True, text=True)
        out = r.stdout + r.stderr
        failed = []
        for m in re.finditer(r'error: (\S+?\.lean):(\d+):\d+', out):
            nm = enclosing(os.path.join(SCR, 'lean', m.group(1)), int(m.group(2)))
            if nm and nm not in failed:
                failed.append(nm)
        rec = dict(id=mu['id'], definition=mu['definition'], file=mu['file'], edit=mu['edit'], breaks=mu['breaks'],
                   failed=failed, survived=(r.returncode == 0), tightened=mu.get('tightened', []))
        if not failed and r.returncode != 0:
            rec['failed'] = ['build: ' + out[-300:]]
        print(mu['id'], 'SURVIVED' if r.returncode == 0 else 'killed by', failed)
        with open(LOG, 'a') as g:
            g.write(json.dumps(rec) + '\n')

main()
