"""Compares `file` a-b citations in model comments with the positions of the named functions in /repo."""
import ast, glob, re, sys
defs = {}
def load(path):
    if path in defs: return defs[path]
    d = {}
    try: t = ast.parse(open('/repo/' + path).read())
    except FileNotFoundError: return None
    def walk(node, prefix):
        for c in node.body if hasattr(node, 'body') else []:
            if isinstance(c, (ast.FunctionDef, ast.ClassDef)):
                if isinstance(c, ast.FunctionDef) and any('overload' in ast.unparse(x) for x in c.decorator_list):
                    continue
                d.setdefault(c.name, []).append((c.lineno, c.end_lineno))
                walk(c, c.name)
    walk(t, '')
    defs[path] = d
    return d
for f in sorted(glob.glob('/verif/lean/Verif/Model/*.lean')):
    text = open(f).read()
    for m in re.finditer(r'/--(.*?)-/', text, re.S):
        doc = m.group(1)
        for c in re.finditer(r'`(rene/[\w/]+\.py)`\s+(\d+)-(\d+):\s+(?:loop body of |the loop of |one round of the loop of |body of )?`(?:class )?(?:\w+\.)?(\w+)`', doc):
            path, a, b, name = c.group(1), int(c.group(2)), int(c.group(3)), c.group(4)
            d = load(path)
            if d is None: print(f, 'NO FILE', path); continue
            if name not in d: print(f.split('/')[-1], path, a, b, name, 'NOT FOUND'); continue
            if not any(x <= a and b <= y for x, y in d[name]):
                print(f.split('/')[-1], path, a, b, name, 'actual', d[name])
