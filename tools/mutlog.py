#!/usr/bin/env python3
"""mutlog.py mutants.json results.jsonl [tightened.json]: appends one line per mutant to seeded/LOG.jsonl (mutants already there are skipped)."""
import json, os, sys
root = os.path.dirname(os.path.dirname(os.path.abspath(__file__)))
log = os.path.join(root, 'seeded', 'LOG.jsonl')
done = {json.loads(l)['id'] for l in open(log)} if os.path.exists(log) else set()
muts = {m['id']: m for m in json.load(open(sys.argv[1]))}
tight = json.load(open(sys.argv[3])) if len(sys.argv) > 3 else {}
with open(log, 'a') as out:
    for l in open(sys.argv[2]):
        r = json.loads(l)
        if r['id'] in done or r['id'] not in muts:
            continue
        m = muts[r['id']]
        target = [c for c in r['claims'] if c.split('_')[0] in m['breaks']]
        out.write(json.dumps({
            'id': r['id'], 'definition': m['def'], 'edit': m['edit'],
            'diff': [{'file': 'lean/Verif/' + e['file'], 'old': e['old'], 'new': e['new']} for e in m['edits']],
            'claim': m['claim'], 'outcome': 'build fails' if r['rc'] else 'survived',
            'failed': r['direct'] + r['model_errors'], 'claims_no_longer_proved': target,
            'other_claims_no_longer_proved': len(r['claims']) - len(target),
            'tightened': tight.get(r['id'], [])}) + '\n')
        done.add(r['id'])
