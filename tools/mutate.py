#!/usr/bin/env python3
"""Mutation testing of the theorems, in a scratch copy outside /verif.

usage: mutate.py batch.json      each entry: {"definition","file","old","new","edit","claim"}
Copies /verif/lean to /tmp/mut/lean, applies one edit at a time to a model file, rebuilds the
model modules and checks the property files (concatenated per group, so that one failing
property file does not hide the next).  A claim theorem counts as failed when its own proof
fails or it depends on a failed lemma (#print axioms shows the placeholder axiom)."""
import json, os, re, shutil, subprocess, sys
from concurrent.futures import ThreadPoolExecutor
SRC, DST = '/verif/lean', '/tmp/mut/lean'

def props_deps():
    deps = {}
    for f in os.listdir(f'{SRC}/Verif/Props'):
        if f.endswith('.lean'):
            deps[f[:-5]] = re.findall(r'^import Verif\.(\S+)', open(f'{SRC}/Verif/Props/{f}').read(), re.M)
    return deps

def closure(p, deps, acc):
    for d in deps[p]:
        if d.startswith('Props.'):
            closure(d[6:], deps, acc)
    if p not in acc: acc.append(p)
    return acc

def model_deps(m, seen=None):
    seen = seen if seen is not None else set()
    if m in seen: return seen
    seen.add(m)
    for d in re.findall(r'^import Verif\.Model\.(\S+)', open(f'{SRC}/Verif/Model/{m}.lean').read(), re.M):
        model_deps(d, seen)
    return seen

def claims():
    c = {}
    for line in open('/verif/tools/claims.txt'):
        p = [x.strip() for x in line.split('|')]
        if len(p) >= 3: c[p[0]] = [t.strip() for t in p[2].split(',') if t.strip()]
    return c

def main():
    batch = json.load(open(sys.argv[1]))
    if not os.path.exists(DST):
        shutil.copytree(SRC, DST, symlinks=True)
    for sub in ('Model', 'Props'):
        for f in os.listdir(f'{SRC}/Verif/{sub}'):
            a, b = f'{SRC}/Verif/{sub}/{f}', f'{DST}/Verif/{sub}/{f}'
            if not os.path.exists(b) or open(a).read() != open(b).read(): shutil.copy(a, b)
    deps = props_deps()
    # top-level property files: not imported by another one, chains share dependencies
    imported = {d[6:] for v in deps.values() for d in v if d.startswith('Props.')}
    tops = [p for p in deps if p not in imported]
    cl = claims()
    allthms = {t for v in cl.values() for t in v}
    log = open('/verif/seeded/LOG.jsonl', 'a') if '--log' in sys.argv else None
    for k, m in enumerate(batch):
        path = f'{DST}/Verif/{m["file"]}'
        orig = open(path).read()
        if orig.count(m['old']) < 1:
            print(k, 'OLD TEXT NOT FOUND', m['definition']); continue
        open(path, 'w').write(orig.replace(m['old'], m['new'], m.get('count', 1)))
        try:
            mods = ['Verif.Model.' + f[:-5] for f in os.listdir(f'{DST}/Verif/Model') if f.endswith('.lean')]
            r = subprocess.run(['lake', 'build'] + mods, cwd=DST, capture_output=True, text=True)
            if r.returncode != 0:
                print(k, 'MODEL DOES NOT BUILD', m['definition'], r.stdout[-600:]); continue
            mod = m['file'].split('/')[-1][:-5]
            # property files that state theorems of the claim, with everything they import
            target = m['claim'].split(':')[0].strip().split()[0]
            want = {t.split('.')[-1] for t in cl.get(target, [])}
            groups = []
            for t in deps:
                s = open(f'{DST}/Verif/Props/{t}.lean').read()
                if want & set(re.findall(r'^theorem (\S+)', s, re.M)):
                    groups.append((t, closure(t, deps, [])))
            def run(g):
                t, chain = g
                imps, body, names = [], [], []
                for p in chain:
                    # only the part of the chain that sees the mutated model matters, keep all
                    s = open(f'{DST}/Verif/Props/{p}.lean').read()
                    imps += [i for i in re.findall(r'^import (\S+)', s, re.M) if not i.startswith('Verif.Props')]
                    body.append(re.sub(r'^import .*\n', '', s, flags=re.M))
                    for mm in re.finditer(r'^(?:private )?(?:theorem|lemma) (\S+)', s, re.M): names.append(mm.group(1))
                txt = '\n'.join('import ' + i for i in dict.fromkeys(imps)) + '\n' + '\n'.join(body)
                full = [x for x in allthms if x.split('.')[-1] in names]
                txt += '\n' + '\n'.join(f'#print axioms {x}' for x in full) + '\n'
                fn = f'/tmp/mut/{t}.lean'
                open(fn, 'w').write(txt)
                try:
                    r = subprocess.run(['lake', 'env', 'lean', fn], cwd=DST, capture_output=True, text=True, timeout=1500)
                    out = r.stdout
                except subprocess.TimeoutExpired:
                    return {'TIMEOUT ' + t}, set()
                lines = txt.split('\n')
                bad = set()
                for l in re.findall(r':(\d+):\d+: error', out):
                    i = int(l) - 1
                    while i >= 0 and not re.match(r'^(?:private |noncomputable |@\[.*\] )*(theorem|lemma|example|def|instance)\b', lines[i]): i -= 1
                    if i >= 0:
                        w = lines[i].split()
                        bad.add(w[1] if w[0] != 'example' else f'example@{t}')
                dirty = set(re.findall(r"'(\S+)' depends on axioms: \[[^\]]*sorryAx", out))
                if 'rror' in out and not bad: bad.add('?? ' + out[:300])
                return bad, dirty
            with ThreadPoolExecutor(3) as ex: res = list(ex.map(run, groups))
            bad = set().union(*[x[0] for x in res]); dirty = set().union(*[x[1] for x in res])
            target = m['claim'].split(':')[0].strip().split()[0]
            # a theorem whose own statement or proof fails so early that it is not even declared
            dirty |= {t for t in cl.get(target, []) if t.split('.')[-1] in bad}
            hit = [t for t in cl.get(target, []) if t in dirty]
            status = 'KILLED' if hit else 'SURVIVED'
            print(k, status, m['definition'], '|', m['edit'], '|', m['claim'][:60], '| failed:', sorted(dirty), '| lemmas:', sorted(x for x in bad if not any(t.endswith('.'+x) for t in dirty))[:8], flush=True)
            if log:
                log.write(json.dumps({'definition': m['definition'], 'edit': m['edit'], 'claim': m['claim'],
                    'theorems_failed': sorted(dirty), 'result': status.lower(),
                    'theorems_tightened': m.get('tightened', [])}) + '\n'); log.flush()
        finally:
            open(path, 'w').write(orig)
main()
