"""Which functions of /repo are cited by the comments of the Lean model?  Prints one line per function."""
import ast, os, re, sys
REPO = '/repo'
HERE = os.path.dirname(os.path.abspath(__file__))
cites = {}
for d, _, fs in os.walk(os.path.join(HERE, '..', 'lean', 'Verif')):
    for f in fs:
        if f.endswith('.lean') and '/Model' in d:
            text = open(os.path.join(d, f)).read()
            for blk in re.findall(r'/-[-!].*?-/', text, re.S):
                for m in re.finditer(r'(\w+\.py):((?:\d+(?:-\d+)?(?:, )?)+)', blk):
                    for r in m.group(2).split(', '):
                        if r:
                            a, _, b = r.partition('-')
                            cites.setdefault(m.group(1), []).append((int(a), int(b or a), f))
def walk(tree, prefix=''):
    for n in ast.iter_child_nodes(tree):
        if isinstance(n, (ast.FunctionDef,)):
            yield prefix + n.name, n.lineno, n.end_lineno
        elif isinstance(n, ast.ClassDef):
            yield from walk(n, prefix + n.name + '.')
def main():
    for f in sorted(os.listdir(REPO)):
        if f.endswith('.py'):
            tree = ast.parse(open(os.path.join(REPO, f)).read())
            for name, a, b in walk(tree):
                hit = sorted({m for (x, y, m) in cites.get(f, []) if x <= b and y >= a})
                print(f'{f}:{a}-{b}\t{name}\t{", ".join(hit) or "-"}')
if __name__ == '__main__':
    main()
