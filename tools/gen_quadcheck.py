#!/usr/bin/env python3
"""Writes lean/Verif/Lemmas/QuadCheck*.lean: the kernel evaluations of all tables (units and splitting into pieces)."""
import os, re
from fractions import Fraction as F
from math import lcm
HERE = os.path.dirname(os.path.abspath(__file__))
M = os.path.join(HERE, '..', 'lean', 'Verif', 'Model')
L = os.path.join(HERE, '..', 'lean', 'Verif', 'Lemmas')
def dens(txt):
    out = [10 ** int(b) for _, b in re.findall(r'dec (\d+) (\d+)', txt)] + [int(b) for _, b in re.findall(r'quo (\d+) (\d+)', txt)]
    return out or [1]
def fac(n):  # as a Lean expression
    k = 0
    while n % 10 == 0: n //= 10; k += 1
    return '%d * 10 ^ %d' % (n, k)
def tables(dim):
    s = open(os.path.join(M, 'QuadTables%d.lean' % dim)).read()
    t = {}
    for m in re.finditer(r'def ([fw]s\d+) : [^\n]*:= \[\n(.*?)\]\n', s, re.S): t[m.group(1)] = m.group(2)
    return t
def unit(t, n):
    S = 12
    for d in dens(t['fs%d' % n]): S = lcm(S, d)
    S = lcm(S, 12)
    W = 1
    for d in dens(t['ws%d' % n]): W = lcm(W, d)
    return S, W
def head(imp, ns, doc):
    return ['import ' + i for i in imp] + ['', '/-! %s  Written by `tools/gen_quadcheck.py`. -/' % doc, 'namespace Verif.Quad.%s' % ns, '']
for dim, ns, T in ((1, 'SegTab', 'Seg'), (2, 'TriTab', 'Tri')):
    t = tables(dim)
    out = head(['Verif.Lemmas.QuadEval'], ns, 'Kernel evaluation of the %s tables.' % {1: 'segment', 2: 'triangle'}[dim])
    for n in sorted(int(k[2:]) for k in t if k[0] == 'f'):
        S, W = unit(t, n)
        out += ['/-- Units of `fs%d` and `ws%d`. -/' % (n, n), 'def S%d : Nat := %s' % (n, fac(S)), '/-- See `S%d`. -/' % n, 'def W%d : Nat := %s' % (n, fac(W))]
        f = T.lower()
        out += ['theorem saneOk%d : sane %d S%d W%d (fs%d.flatMap %s.args) (ws%d.map Prod.snd) (%sInt S%d fs%d) (wInt W%d ws%d) = true := by'
                % (n, dim + 1, n, n, n, T, n, f, n, n, n, n), '  decide +kernel']
        out += ['theorem momOk%d : moments%d %d S%d W%d ((rows%d 0 (wInt W%d ws%d) (%sInt S%d fs%d)).map Row.nat) = true := by'
                % (n, dim, n, n, n, dim, n, n, f, n, n), '  decide +kernel', '']
    out += ['end Verif.Quad.%s' % ns]
    open(os.path.join(L, 'QuadCheck%d.lean' % dim), 'w').write('\n'.join(out) + '\n')
t = tables(3)
files = [('3a', range(0, 16)), ('3b', range(16, 19)), ('3c', range(19, 21))]
prev = 'Verif.Lemmas.QuadEval'
for suf, rng in files:
    out = head([prev], 'TetTab', 'Kernel evaluation of the tetrahedron tables.')
    for n in rng:
        if 'fs%d' % n not in t: continue
        S, W = unit(t, n)
        out += ['/-- Units of `fs%d` and `ws%d`. -/' % (n, n), 'def S%d : Nat := %s' % (n, fac(S)), '/-- See `S%d`. -/' % n, 'def W%d : Nat := %s' % (n, fac(W))]
        out += ['theorem saneOk%d : sane 4 S%d W%d (fs%d.flatMap Tet.args) (ws%d.map Prod.snd) (tetInt S%d fs%d) (wInt W%d ws%d) = true := by'
                % (n, n, n, n, n, n, n, n, n), '  decide +kernel']
        cnt = lambda a: sum(min(b, n - a - b) + 1 for b in range(min(a, n - a) + 1))
        tot = sum(cnt(a) for a in range(n + 1)); pieces = 1 if n < 13 else 2 if n < 16 else 4
        cuts, acc = [0], 0
        for a in range(n + 1):
            acc += cnt(a)
            if acc >= tot * len(cuts) / pieces and len(cuts) < pieces: cuts.append(a + 1)
        cuts.append(n + 1)
        P = '((rows3 (wInt W%d ws%d) (tetInt S%d fs%d)).map Row.nat)' % (n, n, n, n)
        for i, (lo, hi) in enumerate(zip(cuts, cuts[1:])):
            out += ['theorem momOk%d_%d : (List.range\' %d %d).all (moments3 %d S%d W%d %s) = true := by' % (n, i, lo, hi - lo, n, n, n, P), '  decide +kernel']
        out += ['theorem momOk%d {a : Nat} (h : a ≤ %d) : moments3 %d S%d W%d %s a = true := by' % (n, n, n, n, n, P)]
        for i, (lo, hi) in enumerate(zip(cuts, cuts[1:])):
            if i + 1 < len(cuts) - 1:
                out += ['  by_cases h%d : a < %d' % (i, hi), '  · exact List.all_eq_true.1 momOk%d_%d a (List.mem_range\'_1.2 (by omega))' % (n, i)]
            else:
                out += ['  exact List.all_eq_true.1 momOk%d_%d a (List.mem_range\'_1.2 (by omega))' % (n, i)]
        out += ['']
    out += ['end Verif.Quad.TetTab']
    open(os.path.join(L, 'QuadCheck%s.lean' % suf), 'w').write('\n'.join(out) + '\n')
    prev = 'Verif.Lemmas.QuadCheck' + suf
# symmetry
for dim, ns, T, mult in ((1, 'SegTab', 'seg', '[1, 2]'), (2, 'TriTab', 'tri', '[1, 3, 6]'), (3, 'TetTab', 'tet', '[1, 4, 6, 12, 24]')):
    t = tables(dim)
    imp = {1: ['Verif.Lemmas.QuadCheck1'], 2: ['Verif.Lemmas.QuadCheck2'], 3: ['Verif.Lemmas.QuadCheck3c']}[dim] + ['Verif.Lemmas.QuadSym']
    out = head(imp, ns, 'Kernel evaluation of the symmetry of the %s tables.' % {1: 'segment', 2: 'triangle', 3: 'tetrahedron'}[dim])
    for n in sorted(int(k[2:]) for k in t if k[0] == 'f'):
        s = '[%d, ((segMem fs%d).length / 2 / 2 : Nat)]' % (1 if n % 4 == 1 else 0, n) if dim == 1 else 's%d' % n
        tol = '(S%d / 10 ^ 120 : Nat)' % n if dim == 3 and 2 <= n <= 12 else '0'
        z = '' if dim == 3 else '0 '
        out += ['theorem orbOk%d : orbitsOk %d %s (orbitSizes %s %s) ((rows%d %s(wInt W%d ws%d) (%sInt S%d fs%d)).map (Row.pt%d S%d)) = true := by'
                % (n, dim, tol, mult, s, dim, z, n, n, T, n, n, dim, n), '  decide +kernel']
    out += ['', 'end Verif.Quad.%s' % ns]
    open(os.path.join(L, 'QuadOrbit%d.lean' % dim), 'w').write('\n'.join(out) + '\n')
