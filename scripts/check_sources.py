#!/usr/bin/env python3
"""Compares the lines of Go source in lean/Verif/GoSrc/*Text.lean with the files in /repo.

Every definition `/-- The lines a-b of /repo/file. -/ def xText1 : List Text := [t!"...", ...]` must hold exactly those
lines. C62, C64 and C68 rest on this comparison (DESIGN.md, section 1); it is the one part of them that Lean cannot make."""
import re, sys, os
here = os.path.dirname(os.path.abspath(__file__))
src = os.path.join(here, '..', 'lean', 'Verif', 'GoSrc')
repo = sys.argv[1] if len(sys.argv) > 1 else '/repo'
head = re.compile(r'/-- The lines (\d+)-(\d+) of /repo/(\S+)\. -/\ndef \w+ : List Text := \[\n(.*?)\]\n(?=\n|/--|def|end|$)', re.S)
esc = {'n': '\n', 't': '\t', '"': '"', '\\': '\\', "'": "'"}
def unescape(s):
    return re.sub(r'\\(x[0-9a-f]{2}|u[0-9a-f]{4}|.)', lambda m: chr(int(m[1][1:], 16)) if len(m[1]) > 1 else esc[m[1]], s)
bad = total = 0
covered = {}
for f in sorted(os.listdir(src)):
    if not f.endswith('Text.lean'): continue
    text = open(os.path.join(src, f)).read()
    found = head.findall(text)
    assert len(found) == len(re.findall(r'/-- The lines \d', text)), f
    for a, b, name, body in found:
        a, b = int(a), int(b)
        lines = [unescape(m) for m in re.findall(r'^  t!"((?:[^"\\]|\\.)*)",?$', body + '\n', re.M)]
        real = open(os.path.join(repo, name)).read().split('\n')[a - 1:b]
        total += len(real)
        covered.setdefault(name, set()).update(range(a, b + 1))
        if lines != real:
            bad += 1
            print('DIFFERENT', f, name, a, b)
for name, c in sorted(covered.items()):
    n = len(open(os.path.join(repo, name)).read().rstrip('\n').split('\n'))
    print(f'{name}: {len(c)} of {n} lines')
print(f'{total} lines compared, {bad} differences')
sys.exit(bad != 0)
