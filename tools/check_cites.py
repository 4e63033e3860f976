#!/usr/bin/env python3
"""Checks every citation `file:lines` in the comments of the Lean modules: the file must exist under the
repository and have that many lines. Prints those that do not."""
import os, re, sys
repo = sys.argv[1] if len(sys.argv) > 1 else '/repo'
lean = os.path.join(os.path.dirname(os.path.abspath(__file__)), '../lean/Verif')
files = {}
for d, _, fs in os.walk(repo):
    for f in fs:
        p = os.path.join(d, f)
        files.setdefault(f, []).append(p)
size = {}
def lines(p):
    if p not in size:
        size[p] = open(p, errors='replace').read().count('\n') + 1
    return size[p]
pat = re.compile(r'([\w./{},\[\]-]*\.(?:c|h|ts|tsx|js|jsx|json|mdx|md|html|css|scss|astro)):(\d+)(?:-(\d+))?')
seen = bad = 0
for d, _, fs in os.walk(lean):
    for f in sorted(fs):
        if not f.endswith('.lean'):
            continue
        for n, l in enumerate(open(os.path.join(d, f)), 1):
            for m in pat.finditer(l):
                seen += 1
                path, a, b = m[1], int(m[2]), int(m[3] or m[2])
                cand = [p for p in files.get(os.path.basename(path), []) if p.endswith('/' + path.lstrip('./'))]
                if '{' in path or not cand:
                    bad += 1
                    print('%s:%d: no file %s' % (f, n, path))
                elif a > b or all(lines(p) < b for p in cand):
                    bad += 1
                    print('%s:%d: no lines %d-%d in %s' % (f, n, a, b, path))
print('%d citations, %d bad' % (seen, bad))
