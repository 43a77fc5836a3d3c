"""Write the table of results in DESIGN.md from tools/claims.json and the property theorems."""
import glob, json, re
c = json.load(open('/verif/tools/claims.json'))
ids = [json.loads(l)['id'] for l in open('/verif/properties.jsonl')]
where = {}
for f in sorted(glob.glob('/verif/lean/Verif/Props/*.lean')):
    for m in re.finditer(r'^theorem (C\d+)_\w+', open(f).read(), re.M):
        where.setdefault(m.group(1), set()).add(f.split('/')[-1][:-5])
rows = ['| id | status | file in `Verif/Props` | what holds, what is missing |', '|----|--------|------|------|']
for i in ids:
    if i in c:
        rows.append('| %s | %s | %s | %s |' % (i, c[i][0], ', '.join(sorted(where.get(i, []))), (c[i][1] or 'the full claim').replace('|', '\\|')))
    else:
        rows.append('| %s | open | | not yet proved |' % i)
p = '/verif/DESIGN.md'
s = open(p).read()
a, b = '<!-- results -->\n', '<!-- end of results -->\n'
s = s[:s.index(a) + len(a)] + '\n'.join(rows) + '\n' + s[s.index(b):]
open(p, 'w').write(s)
