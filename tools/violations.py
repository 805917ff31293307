"""Regenerate the last section of DESIGN.md: the theorems ending in `_violated`."""
import glob
import os
import re

ROOT = os.path.dirname(os.path.dirname(os.path.abspath(__file__)))
MARK = '<!-- generated by tools/violations.py -->\n'

rows = []
for path in sorted(glob.glob(os.path.join(ROOT, 'lean/Verif/Props/*.lean'))):
    text = open(path).read()
    for m in re.finditer(r'/--((?:(?!-/).)*)-/\s*theorem (C\d+_\w*_violated)', text, re.S):
        doc = ' '.join(m[1].split())
        doc = re.sub(r'^C\d+\w*:? ?\(?', '', doc) if re.match(r'^C\d+\w*: ', doc) else doc
        rows.append((m[2], doc, os.path.basename(path)))
rows.sort(key=lambda r: (int(r[0].split('_')[0][1:]), r[0]))
out = ''.join(f'* `{n}` (`Props/{f}`): {d}\n' for n, d, f in rows)
design = os.path.join(ROOT, 'DESIGN.md')
s = open(design).read()
open(design, 'w').write(s[:s.index(MARK) + len(MARK)] + '\n' + out)
print(len(rows), 'violations')
