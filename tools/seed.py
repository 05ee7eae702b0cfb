"""Mutation test of the theorems.

usage: seed.py MUTATIONS.json OUT.jsonl
Each mutation is {"id", "file", "definition", "old", "new", "claim"}.  In a scratch copy of the Lean project the edit is
applied and the project rebuilt; every theorem whose proof no longer checks is replaced by `sorry`, and so on until the
project builds; finally every theorem in MANIFEST.json is asked for its axioms.  A theorem "failed" if it depends on
sorryAx.  Examples that break are removed.
"""
import json, os, re, shutil, subprocess, sys

SRC = os.environ.get('SEEDSRC', '/verif/lean')
WORK = os.environ.get('SEEDDIR', '/scratch/seed')
DECL = re.compile(r'^(?:@\[[^\]]*\]\s*)?(?:private |protected |noncomputable )*(theorem|lemma|def|abbrev|structure|inductive|instance|example|class)\b')

def sh(cmd, **k):
    return subprocess.run(cmd, capture_output=True, text=True, **k)

def blocks(lines):
    """start indices of top-level items (declarations, doc comments, commands)"""
    st = []
    for i, l in enumerate(lines):
        if l and not l[0].isspace() and (DECL.match(l) or re.match(r'^(/-|end\b|namespace\b|section\b|variable\b|open\b|set_option|omit|include)', l)):
            st.append(i)
    return st

def body_pos(text):
    depth = 0
    cands = []
    i = 0
    while i < len(text):
        c = text[i]
        if text.startswith('--', i) and not text.startswith('-->', i):
            j = text.find('\n', i); i = len(text) if j < 0 else j; continue
        if text.startswith('/-', i):
            j = text.find('-/', i); i = len(text) if j < 0 else j + 2; continue
        if c in '([{⟨': depth += 1
        if c in ')]}⟩': depth -= 1
        if depth == 0 and text.startswith(':=', i):
            line = text[text.rfind('\n', 0, i) + 1:i]
            if not re.search(r'\blet\b[^;]*$', line):
                return i
        i += 1
    return None

def kill(path, lineno):
    """replace the proof of the declaration around the line; return its name, or None if it is not a theorem"""
    lines = open(path).read().split('\n')
    st = blocks(lines)
    idx = lineno - 1
    s = max(x for x in st if x <= idx)
    # a doc comment may precede
    while not DECL.match(lines[s]):
        s = min(x for x in st if x > s)
    nxt = [x for x in st if x > s]
    e = nxt[0] if nxt else len(lines)
    m = DECL.match(lines[s])
    kind = m.group(1)
    text = '\n'.join(lines[s:e])
    if kind == 'example':
        new = ''
        # remove a preceding doc comment
        p = s - 1
        if p >= 0 and lines[p].rstrip().endswith('-/'):
            q = p
            while not lines[q].startswith('/-'): q -= 1
            s = q
        name = 'example@%s:%d' % (os.path.basename(path), lineno)
    elif kind in ('theorem', 'lemma'):
        name = re.match(r'\S*\s*(?:theorem|lemma)\s+(\S+)', text).group(1) if text.startswith('@') else re.search(r'(?:theorem|lemma)\s+(\S+)', text).group(1)
        b = body_pos(text)
        pm = text.find('\n  | ')
        if b is None or 0 <= pm < b: b = pm
        if 'sorry -- killed' in text: return ('STUCK', name)
        new = text[:b].rstrip() + ' := by\n  sorry -- killed\n'
    else:
        return ('DEF', text.split('\n')[0])
    lines[s:e] = new.split('\n')
    open(path, 'w').write('\n'.join(lines))
    return ('OK', name)

def heads(path, ls):
    """one line number per declaration containing one of the given lines"""
    st = blocks(open(path).read().split('\n'))
    return {max(l for l in ls if max(x for x in st if x <= l - 1) == s)
            for s in {max(x for x in st if x <= l - 1) for l in ls}}

def run(m):
    shutil.rmtree(WORK, ignore_errors=True)
    sh(['cp', '-a', SRC, WORK])
    p = os.path.join(WORK, m['file'])
    t = open(p).read()
    if t.count(m['old']) != 1:
        return {'error': 'old text occurs %d times' % t.count(m['old'])}
    open(p, 'w').write(t.replace(m['old'], m['new']))
    killed = []
    retries = 0
    for it in range(60):
        r = sh(['prlimit', '--as=24000000000', 'lake', 'build'], cwd=WORK)
        out = r.stdout + r.stderr
        if r.returncode == 0: break
        errs = {}
        for mm in re.finditer(r'^error: (\S+?\.lean):(\d+):\d+:', out, re.M):
            errs.setdefault(mm.group(1), set()).add(int(mm.group(2)))
        if not errs and retries < 3:
            # lean could not start a thread: try again
            retries += 1
            continue
        if not errs:
            # a computation in the kernel ran out of memory: give up all of them in the module
            mods = re.findall(r'Building (Verif\.\S+)', ''.join(l + '\n' for l in out.split('\n') if l.startswith('✖')))
            n0 = len(killed)
            for md in mods:
                f = md.replace('.', '/') + '.lean'
                while True:
                    ls = open(os.path.join(WORK, f)).read().split('\n')
                    hit = [i + 1 for i, l in enumerate(ls) if 'decide +kernel' in l]
                    if not hit: break
                    k, n = kill(os.path.join(WORK, f), hit[-1])
                    if k != 'OK': break
                    killed.append(n)
            if len(killed) == n0: return {'error': out[-800:]}
            continue
        retries = 0
        for f, ls in errs.items():
            done = set()
            for l in sorted(heads(os.path.join(WORK, f), ls), reverse=True):
                k, n = kill(os.path.join(WORK, f), l)
                if k == 'DEF': return {'error': 'definition does not compile: ' + n, 'out': out[-600:]}
                if k == 'STUCK' and n in done: continue
                if k == 'STUCK': return {'error': 'stuck at ' + n}
                if n not in done:
                    done.add(n); killed.append(n)
                if k == 'OK' and not n.startswith('example'): pass
    else:
        return {'error': 'no fixpoint', 'killed': killed}
    man = json.load(open('/verif/MANIFEST.json'))
    ths = sorted({t for c in man['claims'] for t in c['theorems']})
    with open(WORK + '/Ax.lean', 'w') as f:
        f.write('import Verif\n' + ''.join('#print axioms %s\n' % t for t in ths))
    r = sh(['lake', 'env', 'lean', 'Ax.lean'], cwd=WORK)
    failed = []
    for mm in re.finditer(r"^'(\S+)' depends on axioms: \[([^\]]*)\]", r.stdout, re.M):
        if 'sorryAx' in mm.group(2): failed.append(mm.group(1))
    return {'broken_proofs': killed, 'failed': failed, 'n_theorems': len(ths)}

if __name__ == '__main__':
    done = set()
    if os.path.exists(sys.argv[2]):
        done = {json.loads(l)['id'] for l in open(sys.argv[2])}
    for m in json.load(open(sys.argv[1])):
        if m['id'] in done: continue
        res = run(m)
        with open(sys.argv[2], 'a') as f:
            f.write(json.dumps({**m, **res}, ensure_ascii=False) + '\n')
