#!/usr/bin/env python3
"""Transcribes the tables of /repo/anifem++/fem/quadrature_formulas.cpp into lean/Verif/Model/QuadTables{1,2,3}.lean.

Every macro call of the source becomes a constructor, every literal the exact fraction it denotes.  The output is an
ordinary part of the model; nothing in the proofs depends on this script.
"""
import re, os
SRC = '/repo/anifem++/fem/quadrature_formulas.cpp'
OUT = os.path.join(os.path.dirname(os.path.abspath(__file__)), '..', 'lean', 'Verif', 'Model')
lines = [re.sub(r'//.*', '', l) for l in open(SRC).read().split('\n')]
DIMS = [(1, 'Seg', 8, 107), (2, 'Tri', 109, 523), (3, 'Tet', 526, 1502)]
CTOR = {'CENTRE': 'centre', 'TWIST2': 'twist2', 'TWIST3': 'twist3', 'TWIST4': 'twist4', 'TWIST6': 'twist6',
        'TWIST12': 'twist12', 'TWIST24': 'twist24', 'STWIST1': 'stwist1', 'STWIST2': 'stwist2', 'STWIST3': 'stwist3',
        'STWIST4': 'stwist4', 'STWIST5': 'stwist5'}

def lit(s, names):
    s = s.strip()
    if s in names: return names[s]
    m = re.fullmatch(r'qReal\((\d+)\)\s*/\s*(\d+)', s)
    if m: return '(quo %s %s)' % m.groups()
    m = re.fullmatch(r'(\d*)\.?(\d*)(?:e(-?\d+))?', s)
    assert m and s, s
    a, b, e = m.group(1), m.group(2), int(m.group(3) or 0)
    k = len(b) - e
    n = int(a + b)
    if k == 0: return '(dec %d 0)' % n
    return '(dec %d %d)' % (n, k)

def calls(body):
    body = body.strip()
    for m in re.finditer(r'(\w+)\(', body):
        pass
    res, i = [], 0
    while True:
        m = re.compile(r'\s*,?\s*(W?S?(?:TWIST\d*|CENTRE))\(').match(body, i)
        if not m:
            assert not body[i:].strip(' ,\n'), body[i:]
            return res
        d, j = 1, m.end()
        while d:
            d += {'(': 1, ')': -1}.get(body[j], 0); j += 1
        arg = body[m.end():j - 1]
        parts, d, cur = [], 0, ''
        for ch in arg:
            d += {'(': 1, ')': -1}.get(ch, 0)
            if ch == ',' and d == 0: parts.append(cur); cur = ''
            else: cur += ch
        if cur.strip(): parts.append(cur)
        res.append((m.group(1), parts)); i = j

for dim, ty, a, b in DIMS:
    text = lines[a - 1:b]
    keep = [l if not l.lstrip().startswith('#') and not text[i - 1].endswith('\\') else '' for i, l in enumerate(text)]
    body = '\n'.join(keep)
    lineof = lambda pos: a + body.count('\n', 0, pos)
    names = {}
    for m in re.finditer(r'(\w+)\s*=\s*([0-9.e-]+)\s*[,;]', body):
        names[m.group(1)] = lit(m.group(2), {})
    out = ['import Verif.Model.Quadrature', '', '/-!',
           'Transcription of the tables of `anifem++/fem/quadrature_formulas.cpp:%d-%d`, made by `tools/gen_quadrature.py`.' % (a, b),
           'Named constants of the source are replaced by their literals.', '-/', 'namespace Verif.Quad.%sTab' % ty, '']
    for m in re.finditer(r'\b([fw]s\d+)\[\]\s*=\s*\{([^{}]*)\}', body):
        nm = m.group(1)
        cs = calls(m.group(2))
        out.append('/-- quadrature_formulas.cpp:%d-%d `%s`. -/' % (lineof(m.start()), lineof(m.end()), nm))
        if nm[0] == 'f':
            items = ['.' + ' '.join([CTOR[c]] + [lit(x, names) for x in ar]) for c, ar in cs]
            out.append('def %s : List (%s Lit) := [\n  %s]' % (nm, ty, ',\n  '.join(items)))
        else:
            def wt(c, ar):
                assert c[0] == 'W' and len(ar) == 1
                k = {'WCENTRE': 1, 'WSTWIST1': 1, 'WSTWIST2': 4, 'WSTWIST3': 6, 'WSTWIST4': 12, 'WSTWIST5': 24}.get(c)
                if k is None: k = int(c[6:])
                return '(%d, %s)' % (k, lit(ar[0], names))
            out.append('def %s : List (Nat × Lit) := [\n  %s]' % (nm, ',\n  '.join(wt(*c) for c in cs)))
        out.append('')
    for m in re.finditer(r'ARRI (s\d+)\[\d\]\s*=\s*\{([^{}]*)\}', body):
        out.append('/-- quadrature_formulas.cpp:%d `%s`. -/' % (lineof(m.start()), m.group(1)))
        out.append('def %s : List Int := [%s]' % (m.group(1), m.group(2).strip()))
        out.append('')
    out.append('end Verif.Quad.%sTab' % ty)
    open(os.path.join(OUT, 'QuadTables%d.lean' % dim), 'w').write('\n'.join(out) + '\n')
