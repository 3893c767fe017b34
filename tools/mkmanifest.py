"""Generates MANIFEST.json from the theorem names found in lean/Verif/Props and the table of statuses below."""
import json, re, glob, os
here = os.path.dirname(os.path.abspath(__file__))
root = os.path.dirname(here)
names = {}
for f in sorted(glob.glob(root + '/lean/Verif/Props/*.lean')):
    src = open(f).read()
    imported = open(root + '/lean/Verif.lean').read()
    mod = 'Verif.Props.' + os.path.basename(f)[:-5]
    if ('import ' + mod + '\n') not in imported:
        continue
    for m in re.finditer(r'^theorem (C(\d\d)_\w+)', src, re.M):
        names.setdefault('C' + m.group(2), []).append('Npy.' + m.group(1))
notes = json.load(open(here + '/notes.json'))
claims = []
for l in open(root + '/properties.jsonl'):
    p = json.loads(l)
    pid = p['id']
    th = names.get(pid, [])
    n = notes.get(pid, {})
    if not th and n.get('status') != 'not_applicable':
        continue
    status = n.get('status', 'proved')
    claims.append({'property': pid, 'status': status, 'theorems': th, 'note': n.get('note', '')})
json.dump({'claims': claims}, open(root + '/MANIFEST.json', 'w'), indent=1)
print(len(claims), 'claims', sum(len(c['theorems']) for c in claims), 'theorems')
