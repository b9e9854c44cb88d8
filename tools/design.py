#!/usr/bin/env python3
"""Write the status table of DESIGN.md from MANIFEST.json and properties.jsonl."""
import json
t = {}
for l in open('properties.jsonl'):
    o = json.loads(l)
    t[o['id']] = o['title']
m = json.load(open('MANIFEST.json'))
rows = ['| Id | Property | Status | Theorems |', '|----|----------|--------|----------|']
for c in m['claims']:
    names = ', '.join('`' + x.split('.')[-1] + '`' for x in c['theorems'])
    rows.append(f"| {c['property']} | {t[c['property']]} | {c['status']} | {names} |")
s = open('DESIGN.md').read()
a, b = s.index('<!-- status -->'), s.index('<!-- end -->')
s = s[:a] + '<!-- status -->\n' + '\n'.join(rows) + '\n' + s[b:]
open('DESIGN.md', 'w').write(s)
