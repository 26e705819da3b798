"""Regenerate AXIOMS.md from the output of collectAxioms (one 'theorem: axioms' line each)
and the findings section of DESIGN.md from scripts/notes.json."""
import json, sys, re
man = json.load(open('/verif/MANIFEST.json'))
names = {t.split('.')[-1] for c in man['claims'] for t in c['theorems']}
if len(sys.argv) > 1:
    rows = [l.rstrip('\n').split(': ') for l in open(sys.argv[1])]
    rows = [r for r in rows if r[0] in names]
    by = {}
    for n, a in rows:
        by.setdefault(a, []).append(n)
    with open('/verif/AXIOMS.md', 'w') as f:
        f.write('# Axioms of each property theorem\n\nAs reported by `collectAxioms` (`#print axioms`) on the built project.\n')
        for a in sorted(by, key=len):
            f.write(f'\n## {a}\n\n' + '\n'.join('* `%s`' % n for n in sorted(by[a])) + '\n')
    miss = names - {r[0] for r in rows}
    print(len(rows), 'missing', sorted(miss))
notes = json.load(open('/verif/scripts/notes.json'))
props = {json.loads(l)['id']: json.loads(l) for l in open('/verif/properties.jsonl')}
s = open('/verif/DESIGN.md').read()
i = s.find('## 5. Findings')
if i >= 0:
    s = s[:i]
s = s.rstrip() + '\n\n## 5. Findings\n\nProperties that the code does not have in full. Each is refuted by a theorem about the model\n(`_refuted`), and the part that holds is proved beside it.\n\n| id | property | finding |\n|---|---|---|\n'
status = {c['property']: c['status'] for c in man['claims']}
for k in sorted(k for k in notes if status[k] == 'partial'):
    s += f"| {k} | {props[k]['title']} | {notes[k]['note']} |\n"
open('/verif/DESIGN.md', 'w').write(s)
