#!/usr/bin/env python3
"""Rebuild seeded/LOG.jsonl from the raw outputs of the mutation harness.
usage: seed_log.py out1.jsonl out2.jsonl ..."""
import json, sys, os, re
T = {
 'h09': ['C58_html_tree'], 'h10': ['C58_html_tree'], 'h18': ['C58_html_tree'],
 'l07': ['C59_latex_source'], 'l08': ['C59_latex_source'], 'l09': ['C59_latex_source'],
 'p25': ['C60_layout', 'C45_lines_partial'],
 'i15': ['C56 (InlineGrammar: quoted titles)', 'C64'], 'b06': ['C63'], 'b27': ['C64'],
}
T.update(json.load(open(os.path.join(os.path.dirname(__file__), 'seed_tight.json'))) if os.path.exists(os.path.join(os.path.dirname(__file__), 'seed_tight.json')) else {})
here = os.path.dirname(os.path.abspath(__file__))
raw = os.path.join(here, '..', 'seeded', 'raw')
recs = []
for f in sorted(os.listdir(raw)):
    for l in open(os.path.join(raw, f)):
        recs.append(json.loads(l))
with open(os.path.join(here, '..', 'seeded', 'LOG.jsonl'), 'w') as o:
    for r in recs:
        if 'result' in r: continue
        surv = not r['failed']
        d = dict(id=r['id'], definition=f"{r['file']}.{r['definition']}", edit=r['edit'], claim_broken=r['claim'],
                 theorems_failed=r['failed'], modules_blocked=r['blocked'],
                 survived=surv, theorems_tightened=T.get(r['id'], []) if surv else [])
        if surv: d['note'] = T.get(r['id']+'_note', 'survived; see the rerun with suffix b/c if tightened')
        o.write(json.dumps(d, ensure_ascii=False) + '\n')
print(len(recs), 'records;', sum(1 for r in recs if not r.get('failed')), 'survivors')
