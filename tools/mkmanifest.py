"""Write MANIFEST.json from the notes in tools/claims.json.

claims.json maps a property id to [status, note].  The theorems are the ones in
lean/Verif/Props whose name starts with the property id.
"""
import json, os, re, sys
root = os.path.dirname(os.path.dirname(os.path.abspath(__file__)))
thms = {}
props = os.path.join(root, 'lean/Verif/Props')
for f in sorted(os.listdir(props)):
    ns = []
    for line in open(os.path.join(props, f)):
        m = re.match(r'namespace (\S+)', line)
        if m: ns.append(m.group(1))
        m = re.match(r'end (\S+)', line)
        if m and ns and ns[-1] == m.group(1): ns.pop()
        m = re.match(r'theorem ((C\d+)_\S+)', line)
        if m: thms.setdefault(m.group(2), []).append('.'.join(ns + [m.group(1)]))
claims = json.load(open(os.path.join(root, 'tools/claims.json')))
out = []
for pid in sorted(set(claims) | set(thms), key=lambda i: int(i[1:])):
    if pid not in claims: sys.exit('no note for ' + pid)
    status, note = claims[pid]
    out.append({'property': pid, 'status': status, 'theorems': thms.get(pid, []), 'note': note})
json.dump({'claims': out}, open(os.path.join(root, 'MANIFEST.json'), 'w'), indent=1, ensure_ascii=False)
