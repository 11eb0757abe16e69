#!/usr/bin/env python3
"""Generates MANIFEST.json: each theorem whose name starts with Cnn_ in lean/Verif/*.lean is a theorem of property Cnn."""
import re, glob, json, os
root = os.path.dirname(os.path.dirname(os.path.abspath(__file__)))
STATUS = {}   # property -> (status, note)
exec(open(os.path.join(root, 'tools', 'manifest_notes.py')).read())
th = {}
for f in sorted(glob.glob(os.path.join(root, 'lean/Verif/*.lean'))):
    ns = []
    for line in open(f):
        m = re.match(r'namespace (\S+)', line)
        if m: ns.append(m.group(1))
        m = re.match(r'end (\S+)\s*$', line)
        if m and ns and ns[-1] == m.group(1): ns.pop()
        m = re.match(r'(?:private )?theorem (C\d+_\w+)', line)
        if m:
            th.setdefault(m.group(1).split('_')[0], []).append('.'.join(ns + [m.group(1)]))
props = [json.loads(l) for l in open(os.path.join(root, 'properties.jsonl'))]
claims = []
for p in props:
    i = p['id']
    if i not in STATUS: continue
    st, note = STATUS[i]
    assert st == 'not_applicable' or th.get(i), i
    claims.append({"property": i, "status": st, "theorems": th.get(i, []), "note": note})
json.dump({"claims": claims}, open(os.path.join(root, 'MANIFEST.json'), 'w'), indent=1, ensure_ascii=False)
print(len(claims), 'claims;', 'without status:', [k for k in sorted(th) if k not in STATUS])
