"""Regenerate MANIFEST.json from the property theorems under lean/Verif/Props.

A theorem belongs to property Cnn when its name starts with `Cnn_`. Status and notes are in
tools/notes.json: {"Cnn": ["proved" | "partial" | "not_applicable", "note"]}.
"""
import json, os, re
root = os.path.join(os.path.dirname(__file__), '..')
thms = {}
pd = os.path.join(root, 'lean', 'Verif', 'Props')
for f in sorted(os.listdir(pd)):
    src = open(os.path.join(pd, f)).read()
    for m in re.finditer(r'^theorem (C\d+)(\w*)', src, re.M):
        thms.setdefault(m.group(1), []).append('Bytecodec.Props.' + m.group(1) + m.group(2))
notes = json.load(open(os.path.join(root, 'tools', 'notes.json')))
claims = []
for line in open(os.path.join(root, 'properties.jsonl')):
    i = json.loads(line)['id']
    if i in thms or i in notes:
        st, note = notes.get(i, ['proved', ''])
        claims.append({'property': i, 'status': st, 'theorems': thms.get(i, []), 'note': note})
json.dump({'claims': claims}, open(os.path.join(root, 'MANIFEST.json'), 'w'), indent=1)
print(len(claims), 'claims,', sum(len(c['theorems']) for c in claims), 'theorems; no note:',
      [i for i in thms if i not in notes])
