#!/usr/bin/env python3
"""Append the results of a batch of seeded edits to seeded/LOG.jsonl.

usage: seedlog.py RESULTS.jsonl
Each result has: id, file, defn, old, new, edit, claim, rc, failed {file: [lemmas]}, blocked
[property files that import a failed file], and optionally witness / tightened / note.
"""
import json
import sys

out = open('/verif/seeded/LOG.jsonl', 'a')
for line in open(sys.argv[1]):
    line = line.strip()
    if not line:
        continue
    r = json.loads(line)
    failed = [f'{f}: {n}' for f, ns in r['failed'].items() for n in ns]
    rec = {
        'id': r['id'],
        'definition': f"Verif/Model/{r['file']} {r['defn']}",
        'edit': f"{r['edit']}: `{r['old']}` -> `{r['new']}`",
        'claim': r['claim'],
        'theorems_failed': failed,
        'property_files_no_longer_built': r['blocked'],
        'theorems_tightened': r.get('tightened', []),
    }
    for k in ('witness', 'note'):
        if r.get(k):
            rec[k] = r[k]
    if r['rc'] == 0 and 'note' not in rec:
        rec['note'] = 'survived'
    out.write(json.dumps(rec, ensure_ascii=False) + '\n')
