#!/usr/bin/env python3
"""Automatic mutation tests: one small random edit of a random definition of the model at a time.

usage: automutate.py [-s | -u seeded/LOG.jsonl] scratch_dir log.jsonl seed count [file prefix]

The scratch directory is a built copy of lean/ outside the repository.  An edit changes a number, a comparison, an
operator, a byte order, a truth value, the kind of an exception, or takes instead of drops.  With -s the edits are larger: a
condition that always or never holds, a part of a list left out, an option ignored, the arms of an if swapped.  With -u both
kinds of edits are made, each to a definition that does not occur in the given log yet.  The build is stopped at the first
module that fails.  One line per attempt is appended to the log.
"""
import json, os, random, re, subprocess, sys, signal

structural = sys.argv[1] == '-s'
if structural: del sys.argv[1]
known = None
if sys.argv[1] == '-u':
    known = set()
    for l in open(sys.argv[2], encoding='utf-8'): known.update(re.findall(r"[\w']+", json.loads(l)['definition']))
    del sys.argv[1:3]
scratch, log, seed, count = sys.argv[1], sys.argv[2], int(sys.argv[3]), int(sys.argv[4])
prefix = sys.argv[5] if len(sys.argv) > 5 else ''
rng = random.Random(seed)
model = os.path.join(scratch, 'Verif', 'Model')
DECL = re.compile(r'^(?:@\[[^\]]*\]\s*)?(?:private |protected )?(theorem|lemma|def|example|instance)\s*(\S*)')
RULES = [(r'(?<![\w.])(\d+|0x[0-9A-Fa-f]+)(?![\w.])', lambda s: str(int(s, 0) + 1)),
         (r' \+ (?!\+)', lambda s: ' - '), (r' - ', lambda s: ' + '), (r' < ', lambda s: ' ≤ '), (r' ≤ ', lambda s: ' < '),
         (r' > ', lambda s: ' ≥ '), (r' ≥ ', lambda s: ' > '), (r' ∧ ', lambda s: ' ∨ '), (r' ∨ ', lambda s: ' ∧ '),
         (r' ≠ ', lambda s: ' = '), (r' && ', lambda s: ' || '), (r' \|\| ', lambda s: ' && '), (r'\.take\b', lambda s: '.drop'),
         (r'\.drop\b', lambda s: '.take'), (r'\.little\b', lambda s: '.big'), (r'\.big\b', lambda s: '.little'),
         (r'(?<![\w.])true\b', lambda s: 'false'), (r'(?<![\w.])false\b', lambda s: 'true'),
         (r'\.valueError\b', lambda s: '.keyError'), (r'\.structError\b', lambda s: '.valueError'), (r'\.indexError\b', lambda s: '.keyError'),
         (r'\.typeError\b', lambda s: '.valueError'), (r'\.reverse\b', lambda s: ''), (r' % ', lambda s: ' / '), (r' / ', lambda s: ' % '),
         (r' \* ', lambda s: ' + '), (r' <<< ', lambda s: ' >>> '), (r' >>> ', lambda s: ' <<< '), (r' &&& ', lambda s: ' ||| '), (r' \|\|\| ', lambda s: ' &&& ')]
STRUCTURAL = [(r'\bif (?!h\w* :)(?:(?!\bif\b|\bthen\b|\n).)+ then', lambda s: 'if True then'),
              (r'\bif (?!h\w* :)(?:(?!\bif\b|\bthen\b|\n).)+ then', lambda s: 'if False then'),
              (r' \+\+ (?:\w|\.)+(?= |\)|\n)', lambda s: ''), (r' \+\+ \[[^\[\]\n]*\]', lambda s: ''), (r' \+\+ \([^()\n]*\)', lambda s: ''),
              (r'\(fun (\w+) => [^()\n]*\)', lambda s: 'id'), (r'(?<![\w.])some (?:\w|\.)+(?= |\)|\n)(?! =>)', lambda s: 'none'),
              (r'\.map \w+', lambda s: ''), (r'\.filter \w+', lambda s: ''), (r'\bmin\b', lambda s: 'max'), (r'\bmax\b', lambda s: 'min'),
              (r'\bthen (\S+) else (\S+)', lambda s: re.sub(r'then (\S+) else (\S+)', r'then \2 else \1', s)),
              (r'\braiseIf [^\n]*', lambda s: 'raiseIf False .valueError')]
if structural: RULES = STRUCTURAL
if known is not None: RULES = RULES + STRUCTURAL

def defs(path):
    src = open(path, encoding='utf-8').read()
    out = []
    for m in re.finditer(r'^(/--(?:(?!-/).|\n)*-/\n)?((?:@\[[^\]]*\]\s*)?def (\S+)(?:.*\n)(?:(?:(?!def |theorem |/--|end |mutual|namespace|structure|inductive|instance|open |@\[|/-!).*)\n)*)', src, re.M):
        out.append((m.start(2), m.group(2), m.group(3), (m.group(1) or '').strip('/- \n')))
    return src, out

def sites(body):
    head = re.search(r':=|\n  \|', body)
    if not head: return []
    res = []
    for rx, f in RULES:
        for m in re.finditer(rx, body[head.start():]):
            a, b = m.start() + head.start(), m.end() + head.start()
            line = body[body.rfind('\n', 0, a) + 1:body.find('\n', b) if body.find('\n', b) >= 0 else len(body)]
            if '--' in line: continue
            res.append((a, b, f(m.group(0)), line.strip()))
    return res

def decl_at(path, line):
    name = '?'
    for i, l in enumerate(open(path, encoding='utf-8')):
        if i >= line: break
        m = DECL.match(l)
        if m: name = m.group(2) if m.group(1) != 'example' else 'example (line %d)' % (i + 1)
    return name

done = set()
if os.path.exists(log):
    for l in open(log, encoding='utf-8'):
        d = json.loads(l); done.add((d['definition'], d['edit']))
cands = []
for f in sorted(os.listdir(model)):
    if not f.endswith('.lean') or not f.startswith(prefix): continue
    src, ds = defs(os.path.join(model, f))
    for pos, body, name, doc in ds:
        s = sites(body)
        if s and (known is None or name.split('.')[-1] not in known): cands.append((f, pos, body, name, doc, s))
n = 0
if known is not None:
    rng.shuffle(cands)
    count = min(count, len(cands))
while n < count:
    f, pos, body, name, doc, s = rng.choice(cands) if known is None else cands[n]
    a, b, new, line = rng.choice(s)
    edit = line + '  =>  ' + (body[:a] + new + body[b:])[body.rfind('\n', 0, a) + 1:].split('\n')[0].strip()
    full = f[:-5] + '.' + name
    if (full, edit) in done: continue
    done.add((full, edit)); n += 1
    path = os.path.join(model, f)
    src = open(path, encoding='utf-8').read()
    assert src[pos:pos + len(body)] == body
    open(path, 'w', encoding='utf-8').write(src[:pos] + body[:a] + new + body[b:] + src[pos + len(body):])
    text = ''
    try:
        p = subprocess.Popen(['lake', 'build', 'Verif'], cwd=scratch, stdout=subprocess.PIPE, stderr=subprocess.STDOUT, text=True, start_new_session=True)
        for l in p.stdout:
            text += l
            if 'Lean exited with code' in l:
                os.killpg(p.pid, signal.SIGTERM); break
        p.wait()
        ok = p.returncode == 0
    finally:
        open(path, 'w', encoding='utf-8').write(src)
    failed = []
    for g, l in re.findall(r'error: (\S+?\.lean):(\d+):', text):
        x = g.replace('Verif/', '').replace('.lean', '') + ':' + decl_at(os.path.join(scratch, g), int(l))
        if x not in failed: failed.append(x)
    invalid = any(x.startswith('Model/' + f[:-5] + ':' + name) for x in failed)
    rec = {'definition': full, 'file': 'lean/Verif/Model/' + f, 'edit': edit, 'claim_broken': 'automatic edit of: ' + re.sub(r'\s+', ' ', doc)[:200],
           'theorems_failed': failed, 'survived': ok, 'theorems_tightened': []}
    print('INVALID' if invalid else 'SURVIVED' if ok else 'killed', full, '|', edit[:160], '|', ' '.join(failed)[:120], flush=True)
    if not invalid:
        with open(log, 'a', encoding='utf-8') as g: g.write(json.dumps(rec, ensure_ascii=False) + '\n')
