"""Regenerate MANIFEST.json from the theorem names in lean/Verif/Props/*.lean and the notes below."""
import re, glob, json, os
root = os.path.dirname(os.path.dirname(os.path.abspath(__file__)))
names = {}
for f in sorted(glob.glob(root + '/lean/Verif/Props/*.lean')):
    for m in re.finditer(r'^theorem (C\d{2,3})(_\w+)', open(f).read(), re.M):
        names.setdefault(m.group(1), []).append('Props.' + m.group(1) + m.group(2))
notes = json.load(open(root + '/tools/notes.json'))
claims = []
for l in open(root + '/properties.jsonl'):
    pid = json.loads(l)['id']
    if pid in names:
        st, note = notes.get(pid, ['proved', ''])
        claims.append({'property': pid, 'status': st, 'theorems': names[pid], 'note': note})
json.dump({'claims': claims}, open(root + '/MANIFEST.json', 'w'), ensure_ascii=False, indent=1)
print(len(claims), 'claims', sum(len(c['theorems']) for c in claims), 'theorems')
