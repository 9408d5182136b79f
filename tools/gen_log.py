#!/usr/bin/env python3
"""Appends mutation results (one JSON object per line, as written by the scratch harness) to seeded/LOG.jsonl."""
import json, sys, pathlib
root = pathlib.Path(__file__).resolve().parent.parent
with open(root / 'seeded' / 'LOG.jsonl', 'a') as out:
    for f in sys.argv[1:]:
        for line in open(f):
            r = json.loads(line)
            note = dict(note=r['note']) if 'note' in r else {}
            out.write(json.dumps(dict(definition=r['definition'], file=r['file'], edit=r['edit'], claim=r['claim'],
                                      theorems_failed=r['fails'], modules_failed=r['failed_modules'],
                                      modules_blocked=r['blocked'], tightened=r.get('tightened', []), **note)) + '\n')
