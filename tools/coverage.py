"""Which functions of /repo/pyNTM are cited by the definitions of the model.

Prints one line per function: file, lines, name and the number of model definitions whose
comment cites a line range that overlaps it."""
import ast, glob, re, collections
cites = collections.defaultdict(list)
for f in sorted(glob.glob('/verif/lean/Verif/Model/*.lean')):
    text = open(f).read()
    for m in re.finditer(r'pyNTM/(\w+\.py):([0-9,\s-]+)', text):
        for r in m.group(2).split(','):
            r = r.strip().strip('-').strip()
            if not r: continue
            try:
                p = [int(x) for x in r.split('-')]
            except ValueError:
                continue
            cites[m.group(1)].append((p[0], p[-1], f.split('/')[-1]))
for f in sorted(glob.glob('/repo/pyNTM/*.py')):
    b = f.split('/')[-1]
    if b == 'weathermap.py': continue
    tree = ast.parse(open(f).read())
    for c in ast.walk(tree):
        if isinstance(c, ast.ClassDef) or isinstance(c, ast.Module):
            for d in c.body:
                if isinstance(d, ast.FunctionDef):
                    n = {x[2] for x in cites[b] if x[0] <= d.end_lineno and x[1] >= d.lineno}
                    deco = ''.join('@' + ast.unparse(x) + ' ' for x in d.decorator_list)
                    print(f"{b}:{d.lineno}-{d.end_lineno} {deco}{getattr(c,'name','')}.{d.name} {'COVERED ' + ','.join(sorted(n)) if n else 'not cited'}")
