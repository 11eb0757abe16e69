#!/usr/bin/env python3
"""Checks the /repo citations in the Lean files.  A comment "`item`, `file.rs:a-b`" must give the
line range of a fn/struct/enum/trait/impl called item; with --fix, a wrong range is replaced when the
item is unique in the file.  Other `file.rs:a-b` citations are only checked for being inside the file."""
import re, glob, os, sys
root = os.path.dirname(os.path.dirname(os.path.abspath(__file__)))
repo = '/repo'
files = {}
for d, _, fs in os.walk(repo + '/src'):
    for f in fs:
        if f.endswith('.rs'): files[os.path.relpath(os.path.join(d, f), repo)] = open(os.path.join(d, f)).read().split('\n')
def find(path):
    c = [p for p in files if p == path or p.endswith('/' + path)]
    if len(c) > 1:
        c2 = [p for p in c if '/tests/' not in p]
        c = c2 or c
    return c
def ranges(lines, name):
    out = []
    for i, l in enumerate(lines):
        if re.search(r'\b(fn|struct|enum|trait|macro_rules!|const|static|type)\s+' + re.escape(name) + r'\b', l) or re.match(r'\s*impl\b.*\b' + re.escape(name) + r'\b', l):
            j = i; depth = 0; started = False
            while j < len(lines):
                s = re.sub(r"'[{}]'|\"[^\"]*\"", '', lines[j])
                depth += s.count('{') - s.count('}')
                if '{' in s: started = True
                if started and depth <= 0: break
                if not started and s.rstrip().endswith(';'): break
                j += 1
            out.append((i + 1, j + 1))
    return out
fix = '--fix' in sys.argv
bad = 0
for lf in sorted(glob.glob(root + '/lean/Verif/*.lean')):
    src = open(lf).read()
    def rep(m):
        global bad
        name, path, a, b = m.group(2), m.group(4), int(m.group(5)), int(m.group(6) or m.group(5))
        c = find(path)
        if len(c) != 1:
            print(lf.split('/')[-1], 'file?', path, c); bad += 1; return m.group(0)
        rs = ranges(files[c[0]], name)
        if not rs:
            print(lf.split('/')[-1], 'no item', name, 'in', path); bad += 1; return m.group(0)
        if any(x <= a and b <= y for x, y in rs): return m.group(0)
        bad += 1
        big = [r for r in rs if r[1] > r[0]] or rs
        rs = [min(big, key=lambda r: abs(r[0] - a))]
        if len(rs) == 1:
            print(lf.split('/')[-1], f'{name} {path}:{a}-{b} should be {rs[0]}')
            if fix: return m.group(0).replace(f'{path}:{m.group(5)}' + (f'-{m.group(6)}' if m.group(6) else ''), f'{path}:{rs[0][0]}-{rs[0][1]}')
        else: print(lf.split('/')[-1], f'{name} {path}:{a}-{b} candidates {rs}')
        return m.group(0)
    new = re.sub(r'(`(?:[^`]*?::|self\.)?)(\w+)(`,\s+`)((?:\w+/)*\w+\.rs):(\d+)(?:-(\d+))?`', rep, src)
    if fix and new != src: open(lf, 'w').write(new)
    for m in re.finditer(r'`?((?:\w+/)*\w+\.rs):(\d+)(?:-(\d+))?', src):
        c = find(m.group(1)); 
        if len(c) != 1: print(lf.split('/')[-1], 'file?', m.group(0), c); bad += 1; continue
        if int(m.group(3) or m.group(2)) > len(files[c[0]]): print(lf.split('/')[-1], 'out of range', m.group(0)); bad += 1
print('problems:', bad)
