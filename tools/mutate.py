#!/usr/bin/env python3
"""Mutation tests for the theorems.

usage: mutate.py mutations.json scratch_dir log.jsonl

The scratch directory is a copy of lean/ outside the repository.  mutations.json is a list of objects with
  file   path of the module, relative to lean/Verif
  old    text to replace (must occur exactly once)
  new    replacement
  def    name of the edited definition
  claim  the English claim that becomes false
  target (optional) module to build, default Verif
  edits  (optional) further edits, objects with file, old and new, for errors made at two places at once
One line per mutation is appended to the log: which theorems failed.
"""
import json, os, re, subprocess, sys

muts = json.load(open(sys.argv[1])); scratch = sys.argv[2]; log = sys.argv[3]
DECL = re.compile(r'^(?:@\[[^\]]*\]\s*)?(?:private |protected )?(theorem|lemma|def|example|instance)\s*(\S*)')

def decl_at(path, line):
    name = '?'
    for i, l in enumerate(open(path, encoding='utf-8')):
        if i >= line: break
        m = DECL.match(l)
        if m: name = m.group(2) if m.group(1) != 'example' else 'example (line %d)' % (i + 1)
    return name

for m in muts:
    edits = [m] + m.get('edits', [])
    saved = {}
    bad = None
    for e in edits:
        path = os.path.join(scratch, 'Verif', e.get('file', m['file']))
        src = open(path, encoding='utf-8').read()
        saved.setdefault(path, src)
        if src.count(e['old']) != 1: bad = (e['old'], src.count(e['old'])); break
        open(path, 'w', encoding='utf-8').write(src.replace(e['old'], e['new']))
    if bad:
        for path, src in saved.items(): open(path, 'w', encoding='utf-8').write(src)
        print('SKIP', m['def'], 'occurrences:', bad); continue
    try:
        try:
            out = subprocess.run(['lake', 'build', m.get('target', 'Verif')], cwd=scratch, capture_output=True, text=True, timeout=1500)
            text = out.stdout + out.stderr
        except subprocess.TimeoutExpired:
            text = 'error: timeout'; out = None
        failed = []
        for f, l in re.findall(r'error: (\S+?\.lean):(\d+):', text):
            d = decl_at(os.path.join(scratch, f), int(l))
            x = f.replace('Verif/', '').replace('.lean', '') + ':' + d
            if x not in failed: failed.append(x)
        ok = out is not None and out.returncode == 0
    finally:
        for path, src in saved.items(): open(path, 'w', encoding='utf-8').write(src)
    rec = {'definition': m['def'], 'file': 'lean/Verif/' + m['file'], 'edit': '; and '.join(e['old'].strip() + '  =>  ' + e['new'].strip() for e in edits),
           'claim_broken': m['claim'], 'theorems_failed': failed, 'survived': ok, 'theorems_tightened': m.get('tightened', [])}
    print('SURVIVED' if ok else 'killed', m['def'], '|', m['new'].strip()[:60], '|', ' '.join(failed)[:200], flush=True)
    with open(log, 'a', encoding='utf-8') as g: g.write(json.dumps(rec, ensure_ascii=False) + '\n')
