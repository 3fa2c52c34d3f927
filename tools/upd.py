"""upd.py ID key=value ... : edit or append a property in properties.jsonl; note=status|text sets tools/notes.json"""
import sys, json, os
root = os.path.dirname(os.path.dirname(os.path.abspath(__file__)))
P = root + '/properties.jsonl'; N = root + '/tools/notes.json'
rows = [json.loads(l) for l in open(P)]
notes = json.load(open(N))
for spec in json.load(sys.stdin):
    pid = spec['id']
    note = spec.pop('note', None)
    if note: notes[pid] = note
    row = next((r for r in rows if r['id'] == pid), None)
    if row is None: rows.append(spec)
    else: row.update(spec)
open(P, 'w').write(''.join(json.dumps(r, ensure_ascii=False) + '\n' for r in rows))
json.dump(notes, open(N, 'w'), ensure_ascii=False, indent=1)
