#!/usr/bin/env python3
"""List every source citation of the model with the first and last cited line, for review."""
import re, sys, glob, os
root = os.path.join(os.path.dirname(__file__), '..', 'lean', 'Verif', 'Model')
cache = {}
def line(f, n):
    if f not in cache:
        try:
            cache[f] = open('/repo/' + f).read().split('\n')
        except OSError:
            return '*** no such file ***'
    L = cache[f]
    return L[n-1].strip() if 0 < n <= len(L) else '*** out of range ***'
for path in sorted(glob.glob(root + '/*.lean')):
    src = open(path).read()
    for m in re.finditer(r'/--(.*?)-/\s*(?:@\[[^\]]*\]\s*)?(?:(?:def|structure|inductive|abbrev)\s+(\S+))?', src, re.S):
        for c in re.finditer(r'((?:[a-z_]+/)*[a-z_]+\.go):([0-9]+)(?:-([0-9]+))?((?:, [0-9]+(?:-[0-9]+)?)*)', m.group(1)):
            f = c.group(1)
            rs = [(c.group(2), c.group(3))] + [tuple((x.split('-') + [None])[:2]) for x in c.group(4).split(', ') if x]
            for a, b in rs:
                b = b or a
                print(f"{os.path.basename(path)} {m.group(2)}: {f}:{a}-{b}: {line(f,int(a))!r} .. {line(f,int(b))!r}")
