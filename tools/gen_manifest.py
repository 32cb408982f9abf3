#!/usr/bin/env python3
"""Regenerates MANIFEST.json from the theorem names in lean/Verif (naming scheme Cnn_...)."""
import json, re, pathlib
root = pathlib.Path(__file__).resolve().parent.parent
ids = [json.loads(l)['id'] for l in open(root/'properties.jsonl')]
exec(open(root/'tools'/'manifest_notes.py').read())  # STATUS, NOTES
th = {}
for f in sorted((root/'lean'/'Verif').rglob('*.lean')):
    for m in re.finditer(r'^theorem (C(\d\d)_[A-Za-z0-9_\']+)', f.read_text(), re.M):
        th.setdefault('C'+m.group(2), []).append('Rene.'+m.group(1))
claims = []
for i in ids:
    ts = th.get(i, [])
    st = STATUS.get(i)
    if st is None:
        st = 'proved' if ts else 'partial'
    claims.append(dict(property=i, status=st, theorems=ts, note=NOTES.get(i, '')))
json.dump({'claims': claims}, open(root/'MANIFEST.json', 'w'), indent=1)
print({s: sum(c['status'] == s for c in claims) for s in ('proved', 'partial', 'not_applicable')}, [c['property'] for c in claims if not c['theorems']])
