#!/usr/bin/env python3
"""Writes lean/Verif/Front/Texts.lean from the three tables of mpp-front/src/lib/i18n and from the keys
that occur in the components."""
import json, os, re, sys
repo = sys.argv[1] if len(sys.argv) > 1 else '/repo'
src = os.path.join(repo, 'mpp-front/src')
out = sys.argv[2] if len(sys.argv) > 2 else '/verif/lean/Verif/Front/Texts.lean'

def lit(s):
    return '"' + s.replace('\\', '\\\\').replace('"', '\\"').replace('\n', '\\n') + '"'

def table(lang):
    rows = json.load(open(os.path.join(src, 'lib/i18n', lang + '.json')), object_pairs_hook=list)
    body = ',\n'.join('  (%s,\n    %s)' % (lit(k), lit(v)) for k, v in rows)
    return ('/-- `lib/i18n/%s.json`, all its entries in their order. -/\n'
            'def %sTable : List (String × String) := [\n%s]\n' % (lang, lang, body))

uses = {}
pats = [r'<I18n\s+k="([^"]+)"', r'useI18n\(["\']([^"\']+)["\']\)', r'\bloc\(["\']([^"\']+)["\']\)',
        r'\b\w*Key: "([^"]+)"']
for d, _, fs in sorted(os.walk(src)):
    for f in sorted(fs):
        if not f.endswith(('.ts', '.tsx')):
            continue
        text = open(os.path.join(d, f)).read()
        for p in pats:
            for m in re.finditer(p, text):
                line = text.count('\n', 0, m.start(1)) + 1
                rel = os.path.relpath(os.path.join(d, f), src)
                uses.setdefault(m.group(1), []).append('%s:%d' % (rel, line))
rows = [(k, uses[k]) for k in uses]
with open(out, 'w') as o:
    o.write('/-!\n# The texts of the page in its three languages\n\n'
            'Generated by `tools/gen_i18n.py` from `mpp-front/src/lib/i18n/{en,es,eu}.json` and from the\n'
            'components in `mpp-front/src`.\n-/\nnamespace Mpp.Front\n\n')
    for l in ('en', 'es', 'eu'):
        o.write(table(l) + '\n')
    o.write('/-- The keys that the components ask for. -/\ndef usedKeys : List String := [\n')
    o.write(',\n'.join('  -- %s\n  %s' % (', '.join(ps[:2]), lit(k)) for k, ps in rows))
    o.write(']\n\nend Mpp.Front\n')
print(len(rows), 'keys')
