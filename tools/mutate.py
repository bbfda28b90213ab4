#!/usr/bin/env python3
"""Run wrong programs against the theorems, in a scratch copy outside /verif.

usage: mutate.py BATCH.json [--dry]   (list of {"file", "old", "new", "definition", "claim", optional "edit"})
Every mutant is applied to /tmp/mut, built, and restored; one line per mutant goes to /verif/seeded/LOG.jsonl.
"""
import fcntl, json, os, re, shutil, subprocess, sys
SRC, DST, LOG = '/verif/lean', '/tmp/mut', '/verif/seeded/LOG.jsonl'

def sync():
    os.makedirs(DST, exist_ok=True)
    subprocess.run(['cp', '-a', SRC + '/.', DST], check=True)

def enclosing(path, line):
    name = '?'
    for i, l in enumerate(open(path).read().split('\n')):
        if i + 1 > line: break
        m = re.match(r'\s*(?:@\[[^\]]*\]\s*)?(?:private |protected |noncomputable )*(theorem|lemma|def|example|instance|abbrev)\s*(\S*)', l)
        if m: name = (m.group(2) if m.group(1) != 'example' else 'example@%d' % (i + 1))
    return name

def importers():
    imp = {}
    for root, _, fs in os.walk(DST + '/Verif'):
        for f in fs:
            if f.endswith('.lean'):
                p = os.path.join(root, f)
                mod = os.path.relpath(p, DST)[:-5].replace('/', '.')
                imp[mod] = re.findall(r'^import (Verif\.\S+)', open(p).read(), re.M)
    return imp

def main():
    batch = json.load(open(sys.argv[1]))
    if '--dry' in sys.argv:
        for m in batch:
            n = open(SRC + '/Verif/' + m['file']).read().count(m['old'])
            if n != 1: print('SKIP', m['definition'], 'matches', n)
        return
    lock = open('/tmp/mut.lock', 'w')
    fcntl.flock(lock, fcntl.LOCK_EX)
    sync()
    base = subprocess.run(['lake', 'build'], cwd=DST, capture_output=True, text=True)
    if base.returncode != 0:  # a failure of the unedited copy must not be attributed to a mutant
        print('BASELINE FAILS', re.findall(r'error: (Verif/\S+?\.lean:\d+):', base.stdout + base.stderr)[:5])
        sys.exit(1)
    imp = importers()
    for m in batch:
        path = DST + '/Verif/' + m['file']
        text = open(path).read()
        n = text.count(m['old'])
        if n != 1:
            print('SKIP', m['definition'], 'matches', n); continue
        open(path, 'w').write(text.replace(m['old'], m['new']))
        try:
            r = subprocess.run(['lake', 'build'], cwd=DST, capture_output=True, text=True, timeout=1500)
            out = r.stdout + r.stderr
        except subprocess.TimeoutExpired:
            out = 'timeout'
        failed, mods, deferr = [], set(), False
        for f, l in re.findall(r'error: (Verif/\S+?\.lean):(\d+):', out):
            nm = enclosing(DST + '/' + f, int(l))
            mods.add(f[:-5].replace('/', '.'))
            if nm not in failed: failed.append(nm)
        blocked, chg = set(mods), True
        while chg:
            chg = False
            for k, v in imp.items():
                if k not in blocked and any(x in blocked for x in v): blocked.add(k); chg = True
        props = sorted(x for x in blocked if x.startswith('Verif.Props'))
        rec = {'definition': m['definition'], 'edit': m.get('edit') or (m['old'].strip() + '  =>  ' + m['new'].strip()),
               'claim': m['claim'], 'failed': failed, 'property_modules_that_no_longer_build': props, 'tightened': m.get('tightened', [])}
        print(('SURVIVED ' if not failed else 'killed   ') + m['definition'], '|', m['claim'], '|', failed[:4], flush=True)
        open(LOG, 'a').write(json.dumps(rec, ensure_ascii=False) + '\n')
        open(path, 'w').write(text)
main()
