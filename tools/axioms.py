#!/usr/bin/env python3
"""Write AXIOMS.md: the axioms of every theorem of MANIFEST.json.
Run from /verif after `lake build` in lean/."""
import json, subprocess, re, collections
m = json.load(open('MANIFEST.json'))
names = [t for c in m['claims'] for t in c['theorems']]
src = 'import Verif\n' + ''.join(f'#print axioms {n}\n' for n in names)
open('/tmp/axioms.lean', 'w').write(src)
out = subprocess.run(['lake', 'env', 'lean', '/tmp/axioms.lean'], cwd='lean',
                     capture_output=True, text=True).stdout
out = re.sub(r'\n\s+', ' ', out)
groups = collections.defaultdict(list)
for line in out.splitlines():
    k = re.match(r"'(.*)' depends on axioms: \[(.*)\]", line)
    if k:
        groups[', '.join(sorted(x.strip() for x in k.group(2).split(',')))].append(k.group(1))
        continue
    k = re.match(r"'(.*)' does not depend on any axioms", line)
    if k:
        groups['none'].append(k.group(1))
        continue
    print('?', line)
with open('AXIOMS.md', 'w') as f:
    f.write('# Axioms of each theorem of MANIFEST.json\n\nWritten by `tools/axioms.py` from `#print axioms`.\n')
    for g in sorted(groups):
        f.write(f'\n## {g}\n\n')
        for n in sorted(groups[g]):
            f.write(f'* `{n}`\n')
print({g: len(v) for g, v in groups.items()}, len(names))
