#!/usr/bin/env python3
"""Compares the tables copied into the model with the sources: `ROM` (cu/rom.c), `truth_table` (cu/seq.c)
and the texts of the microstates (states.json)."""
import json, os, re, sys
repo = sys.argv[1] if len(sys.argv) > 1 else '/repo'
here = os.path.dirname(os.path.abspath(__file__))
lean = lambda f: open(os.path.join(here, '../lean/Verif', f)).read()

def c_rows(f, start):
    src = open(os.path.join(repo, 'mpp-cpu/src/lib/components/cu', f)).read()
    body = src[src.index(start):]
    body = body[body.index('{') + 1:body.index('};')]
    found = (re.search(r'\{(.*?)\}', l.split('//')[0]) for l in body.split('\n'))
    return [[x.strip() for x in m[1].split(',')] for m in found if m]

def lean_rows(f, name):
    body = lean(f)
    body = body[body.index('def %s :' % name):]
    body = body[body.index(':=') + 2:]
    body = body[:re.search(r'\]\s*\]', body).end()]
    return [[x.strip() for x in r.split(',')] for r in re.findall(r'\[([^\[\]]*)\]', body)]

ok = True
def same(name, a, b):
    global ok
    ok = ok and a == b
    print('%s: %d rows, %s' % (name, len(a), 'equal' if a == b else 'DIFFERENT'))

same('ROM', [['0' if x == 'X' else x for x in r] for r in c_rows('rom.c', 'const int ROM[')],
     [[{'O': '0', 'I': '1'}[x] for x in r] for r in lean_rows('Tables.lean', 'ROM')])
same('truth table', [[x.lstrip('S') for x in r] for r in c_rows('seq.c', 'truth_table[TRUTH_TABLE_ROWS]')],
     lean_rows('Tables.lean', 'truthTable'))
states = json.load(open(os.path.join(repo, 'docs/src/pages/es/instructions/states.json')), object_pairs_hook=list)
texts = lean('Front/MicroText.lean')
texts = texts[texts.index('def microTexts'):]
texts = texts[:texts.index('")]')]+'")]'
same('states.json', [(k, v) for k, v in states],
     [('S' + k, v) for k, v in re.findall(r'\((\d+), "([^"]*)"\)', texts)])
sys.exit(not ok)
