import json, re, glob, os
root = os.path.join(os.path.dirname(os.path.abspath(__file__)), '..')
rd = lambda p: open(os.path.join(root, p)).read()
props = [json.loads(l) for l in rd('properties.jsonl').splitlines() if l.strip()]
man = {c['property']: c for c in json.loads(rd('MANIFEST.json'))['claims']}
where, fails = {}, []
for p in sorted(glob.glob(os.path.join(root, 'lean/Verif/Props/*.lean'))):
    s = open(p).read()
    for m in re.finditer(r'^(?:noncomputable )?theorem (C(\d+)_\w+)', s, re.M):
        where.setdefault('C' + m.group(2), set()).add(os.path.basename(p)[:-5])
    for m in re.finditer(r'/--((?:(?!-/).)*)-/\s*theorem (C(\d+)_\w*fails\w*)', s, re.S):
        text = ' '.join(m.group(1).split())
        text = re.sub(r'^\*\*.*?\*\*[.:]?\s*', '', text)
        fails.append((int(m.group(3)), m.group(2), text))
out = rd('tools/design_head.md') + rd('tools/design_methods.md')
out += '## The properties\n\n| id | title | status | theorems in `Verif/Props/` |\n|---|---|---|---|\n'
for q in sorted(props, key=lambda q: int(q['id'][1:])):
    i = q['id']
    out += f"| {i} | {q['title']} | {man[i]['status']} | {', '.join(sorted(where.get(i, [])))} |\n"
out += '\n## Disagreements between code and properties\n\nEach is a theorem with a concrete witness, or for all inputs of a kind.\n\n'
for n, name, text in sorted(fails):
    out += f"* **C{n:02d}** `{name}`: {text}\n"
open(os.path.join(root, 'DESIGN.md'), 'w').write(out)
