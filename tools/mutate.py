#!/usr/bin/env python3
"""Mutation testing of the theorems.

usage: mutate.py MUTANTS.json   (run with a scratch copy of lean/ in /root/mut/lean)

Each mutant is {"file", "definition", "old", "new", "edit", "claim"}.  The edit is applied to the
scratch copy and the library is rebuilt; a theorem whose proof fails is replaced by `sorry` so
that the build goes on; finally the property theorems that depend on `sorryAx` are collected.
Results are appended to seeded/LOG.jsonl.
"""
import json, os, re, shutil, subprocess, sys

SRC = os.environ.get('SRC', '/verif/lean')
DST = '/root/mut/lean'
LOG = '/verif/seeded/LOG.jsonl'
DECL = re.compile(r'^(?:private |protected |noncomputable |scoped )*(theorem|lemma|def|abbrev|instance|structure|inductive|class|example)\b\s*([^\s:({\[]*)')

def sync():
    os.makedirs(DST, exist_ok=True)
    for root, _, files in os.walk(SRC):
        if '.lake' in root or '.git' in root:
            continue
        for f in files:
            a = os.path.join(root, f)
            b = os.path.join(DST, os.path.relpath(a, SRC))
            os.makedirs(os.path.dirname(b), exist_ok=True)
            ta = open(a, 'rb').read()
            if not os.path.exists(b) or open(b, 'rb').read() != ta:
                open(b, 'wb').write(ta)
    if not os.path.exists(DST + '/.lake'):
        shutil.copytree(SRC + '/.lake', DST + '/.lake', symlinks=True)

def build(target=None):
    p = subprocess.run(['lake', 'build'] + ([target] if target else []), cwd=DST, capture_output=True)
    return p.returncode, (p.stdout + p.stderr).decode(errors='replace')

def split_decl(lines, i):
    """range of the declaration around line i (0-based) and its kind and name"""
    a = i
    while a >= 0 and not DECL.match(lines[a]):
        a -= 1
    if a < 0:
        return None
    m = DECL.match(lines[a])
    b = a + 1
    stop = re.compile(r'^(/--|/-!|@\[|end\b|section\b|namespace\b|open\b|variable\b|omit\b|set_option\b|theorem\b|lemma\b|def\b|abbrev\b|instance\b|structure\b|inductive\b|class\b|example\b|private\b|scoped\b)')
    while b < len(lines) and not stop.match(lines[b]):
        b += 1
    return a, b, m.group(1), m.group(2)

def sorry_out(path, line):
    lines = open(path).read().split('\n')
    d = split_decl(lines, line - 1)
    if d is None:
        return None
    a, b, kind, name = d
    if kind not in ('theorem', 'lemma', 'example'):
        return (kind, name, False)
    if kind == 'example':
        new = ['example : True := trivial']
        lines[a:b] = new + [''] * (b - a - 1)
    else:
        text = '\n'.join(lines[a:b])
        m = re.search(r' := by[ ]*$| where[ ]*$|\n  \| ', text, re.M) or re.search(r' :=[ ]*$', text, re.M)
        if m:
            head = text[:m.start()]
        else:
            head = text[:text.rindex(' := ')] if ' := by' not in text else text[:text.rindex(' := by')]
        new = (head + ' := by sorry').split('\n')
        lines[a:b] = new + [''] * max(1, b - a - len(new))
    open(path, 'w').write('\n'.join(lines))
    return (kind, name, True)

def prop_theorems():
    out = []
    d = DST + '/Verif/Props'
    for f in sorted(os.listdir(d)):
        ns = []
        for l in open(os.path.join(d, f)):
            m = re.match(r'^namespace (\S+)', l)
            if m: ns.append(m.group(1))
            m = re.match(r'^end (\S+)', l)
            if m and ns and ns[-1] == m.group(1): ns.pop()
            m = re.match(r'^theorem (C\d\d\S*)', l)
            if m: out.append('.'.join(ns + [m.group(1)]))
    return out

def run(mu):
    sync()
    path = os.path.join(DST, 'Verif', mu['file'])
    s = open(path).read()
    if s.count(mu['old']) != 1:
        return {'error': 'pattern occurs %d times' % s.count(mu['old'])}
    open(path, 'w').write(s.replace(mu['old'], mu['new']))
    failed, examples, bad, gave_up = [], 0, [], []
    for _ in range(60):
        rc, out = build()
        if rc == 0:
            break
        errs = re.findall(r'^error: (\S+?\.lean):(\d+):\d+', out, re.M)
        if not errs:
            # a `decide` that has become false can exhaust the memory: give up on all of them in that file
            m = re.search(r'^- (Verif\.\S+)', out, re.M)
            f = m and os.path.join(DST, m.group(1).replace('.', '/') + '.lean')
            t = f and open(f).read()
            if not t or 'by decide +kernel' not in t:
                bad.append(out[-400:]); break
            open(f, 'w').write(t.replace('by decide +kernel', 'by sorry'))
            gave_up.append(m.group(1))
            continue
        todo = {}
        for f, l in errs:
            todo.setdefault(f, set()).add(int(l))
        progress = False
        for f, ls in todo.items():
            seen = set()
            for l in sorted(ls, reverse=True):
                r = sorry_out(os.path.join(DST, f), l)
                if r is None: continue
                if (f, r[1], r[0]) in seen and r[0] != 'example': continue
                seen.add((f, r[1], r[0]))
                if r[2]:
                    progress = True
                    if r[0] == 'example': examples += 1
                    else: failed.append(r[1])
                else:
                    bad.append('%s %s in %s' % (r[0], r[1], f))
        if bad or not progress:
            break
    res = {'lemmas': failed, 'examples': examples, 'decide_given_up_in': gave_up}
    if bad:
        res['error'] = bad
        return res
    names = prop_theorems()
    open(DST + '/ax.lean', 'w').write('import Verif\n' + ''.join('#print axioms %s\n' % n for n in names))
    p = subprocess.run(['lake', 'env', 'lean', 'ax.lean'], cwd=DST, capture_output=True)
    os.remove(DST + '/ax.lean')
    out = p.stdout.decode(errors='replace')
    res['props'] = []
    for m in re.finditer(r"'(\S+)' depends on axioms: \[([^\]]*)\]", out):
        if 'sorryAx' in m.group(2):
            res['props'].append(m.group(1).split('.')[-1])
    return res

def main():
    mus = json.load(open(sys.argv[1]))
    for mu in mus:
        r = run(mu)
        r['mutant'] = mu['edit']
        print(json.dumps(r, ensure_ascii=False), flush=True)
        if 'error' not in r:
            rec = {'definition': mu['definition'], 'edit': mu['edit'], 'claim': mu['claim'],
                   'failed': r['props'], 'failed_lemmas': r['lemmas'][:8], 'failed_examples': r['examples'], **({'decide_given_up_in': r['decide_given_up_in']} if r['decide_given_up_in'] else {}), 'tightened': mu.get('tightened', [])}
            with open(LOG, 'a') as f:
                f.write(json.dumps(rec, ensure_ascii=False) + '\n')
        sync()

if __name__ == '__main__':
    main()
