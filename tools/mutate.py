#!/usr/bin/env python3
"""Mutation testing. Reads tools/mutations/*.json (lists of {definition, file, old, new, claim}), applies each edit to a scratch copy
of /verif/lean outside /verif, rebuilds, and appends the outcome to seeded/LOG.jsonl.
usage: tools/mutate.py FILE.json [index...]"""
import json, os, re, subprocess, sys, shutil
src = os.environ.get('MUT_SRC', '/verif/lean'); scratch = '/tmp/mut/lean'
muts = json.load(open(sys.argv[1])); sel = [int(x) for x in sys.argv[2:]] or range(len(muts))
def sync():
    os.makedirs(scratch, exist_ok=True)
    subprocess.run(['rsync', '-a', '--delete', src + '/', scratch + '/'], check=True) if shutil.which('rsync') else \
        subprocess.run('rm -rf %s && mkdir -p /tmp/mut && cp -a %s %s' % (scratch, src, scratch), shell=True, check=True)
def locate(f, ln):
    name = None
    for i, l in enumerate(open(f), 1):
        if i > ln: break
        m = re.match(r'\s*(?:private )?(theorem|def|example|lemma|instance|abbrev)\s*(\S*)', l)
        if m: name = m.group(2) if m.group(1) != 'example' else 'example@%d' % i
    return name
for i in sel:
    m = muts[i]; sync()
    p = os.path.join(scratch, m['file']); s = open(p).read()
    assert s.count(m['old']) >= 1, (i, m['old'])
    open(p, 'w').write(s.replace(m['old'], m['new'], m.get('count', 1)))
    r = subprocess.run('timeout 1200 lake build --no-ansi 2>&1', shell=True, cwd=scratch, capture_output=True, text=True)
    failed = []
    for f, ln in re.findall(r'error: (Verif/\S+?\.lean):(\d+):', r.stdout):
        n = locate(os.path.join(scratch, f), int(ln))
        if (f, n) not in failed: failed.append((f, n))
    ok = r.returncode == 0
    rec = dict(definition=m['definition'], edit='%s: %s  ->  %s' % (m['file'], m['old'], m['new']), claim_broken=m['claim'],
               theorems_failed=['%s (%s)' % (n, f) for f, n in failed], survived=ok, theorems_tightened=m.get('tightened', []), note=m.get('note', ''))
    open('/verif/seeded/LOG.jsonl', 'a').write(json.dumps(rec) + '\n')
    print(i, 'SURVIVED' if ok else 'killed', m['definition'], [n for _, n in failed][:6], flush=True)
