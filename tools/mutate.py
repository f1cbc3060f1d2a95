"""Runs wrong programs against the executable copies of the theorem statements (tools/monitor.txt).

  mutate.py base            build the scratch base /tmp/mutbase (model and specification only, no proofs)
  mutate.py bugs OUT [NAME..] every bug of seeded/bugs.py, or those named (edits of the model only)
  mutate.py auto OUT FILE.. mechanical one-place edits of the model files given (e.g. Model/Orderbook)

The market monitor is tools/monitor.txt; wrong programs it does not catch, and those of the layers above the market, are
given to tools/monitor_chain.txt. With MUT_MORE=1 the monitor is tools/monitor_more.txt (later statements about the market),
and only the bugs that claim one of its properties are run.

Each result is one JSON line in OUT: name, file, line, edit, verdict (violated statements, 'none', 'error')."""
import glob, json, os, re, shutil, subprocess, sys
ROOT = os.path.dirname(os.path.dirname(os.path.abspath(__file__)))
BASE = os.environ.get('MUT_BASE', '/tmp/mutbase')
RUN = os.environ.get('MUT_RUN', '/tmp/mutrun')
TARGETS = ['Verif.Spec.Demo', 'Verif.Spec.History', 'Verif.Spec.Containers', 'Verif.Spec.Compare', 'Verif.Spec.Custody',
           'Verif.Spec.DemoChain', 'Verif.Spec.Client', 'Verif.Spec.Range']
# used by tools/monitor_more.txt
MORE = ['Verif.Spec.' + x for x in ('Economy', 'Best', 'Depth', 'Place', 'Compete', 'Relate', 'Own', 'Count', 'Wallet', 'Worth', 'Quiet',
                                    'Life', 'Units', 'Reprice')]
TARGETS += MORE
UPPER = ('Model/Layout', 'Model/Wire', 'Model/Accounts', 'Model/Client')
MONITORS = {'Monitor.lean': 'tools/monitor.txt', 'MonitorChain.lean': 'tools/monitor_chain.txt'}

LATER = ['C11', 'C13', 'C19'] + [f'C{i}' for i in (64, 65, 66, 67, 69, 70, 71, 72, 82, 85, 87, 88, 89, 90, 91, 94, 95, 96, 97, 98,
                                                 99, 100, 101, 103, 104, 105, 106, 107, 109, 110)]

def strip(t):
    """Drop theorems and examples (their proofs may compute with the program)."""
    out, skip = [], False
    for para in re.split(r'\n(?=\S)', t):
        if re.match(r'(theorem|example)\b', para):
            if out and re.match(r'/--', out[-1]): out.pop()
            continue
        out.append(para)
    return '\n'.join(out)

def place(d):
    for f, s in MONITORS.items(): shutil.copy(os.path.join(ROOT, s), f'{d}/{f}')
    first = open(os.path.join(ROOT, 'tools/monitor.txt')).read().rsplit('#eval', 1)[0]
    more = open(os.path.join(ROOT, 'tools/monitor_more.txt')).read()
    open(f'{d}/MonitorMore.lean', 'w').write(''.join(f'import {x}\n' for x in MORE) + first + more)

def monitor(f):
    try:
        r = subprocess.run(['lake', 'env', 'lean', f], cwd=RUN, capture_output=True, text=True, timeout=300)
    except subprocess.TimeoutExpired:
        return {'verdict': 'timeout'}
    m = re.search(r'VIOLATED (.*)', r.stdout)
    if not m: return {'verdict': 'error', 'detail': (r.stdout + r.stderr)[:300]}
    v = m.group(1).split()
    return {'verdict': 'violated' if v else 'none', 'violated': v}

def base():
    shutil.rmtree(BASE, ignore_errors=True)
    shutil.copytree(os.path.join(ROOT, 'lean'), BASE, symlinks=True)
    for d in ('Demo', 'DemoChain'):
        p = BASE + f'/Verif/Spec/{d}.lean'
        t = open(p).read(); open(p, 'w').write(strip(t))
    place(BASE)
    r = subprocess.run(['lake', 'build'] + TARGETS, cwd=BASE, capture_output=True, text=True)
    print(r.stdout[-500:], r.returncode)

def trial(edits):
    """edits: [(file, old, new)] or [(file, full new text)]"""
    saved = {}
    try:
        for e in edits:
            p = f'{RUN}/Verif/{e[0]}.lean'
            t = open(p).read()
            saved.setdefault(p, t)
            if len(e) == 2: t2 = e[1]
            else:
                if e[1] not in t: return {'verdict': 'stale', 'detail': e[1][:80]}
                t2 = t.replace(e[1], e[2]) if len(e) > 3 else t.replace(e[1], e[2], 1)
            open(p, 'w').write(t2)
        r = subprocess.run(['lake', 'build'] + TARGETS, cwd=RUN, capture_output=True, text=True)
        if r.returncode:
            errs = [l for l in r.stdout.split('\n') if l.startswith('error')]
            return {'verdict': 'error', 'detail': ' | '.join(errs)[:300]}
        if os.environ.get('MUT_MORE'): return monitor('MonitorMore.lean')
        upper = all(e[0] in UPPER for e in edits)
        d = {'verdict': 'none'} if upper else monitor('Monitor.lean')
        return monitor('MonitorChain.lean') if d['verdict'] == 'none' else d
    finally:
        for p, t in saved.items(): open(p, 'w').write(t)

OPS = [(r'(?<![<←≤])<(?![<$|])', '≤'), ('≤', '<'), (r'(?<![=|$-])>(?![>=])', '≥'), ('≥', '>'), (r'(?<=\w) = (?=\w)', ' ≠ '), (' ≠ ', ' = '),
       (r'\+ 1\b', '+ 2'), (r'\+ 1\b', '+ 0'), (r'- 1\b', '- 0'), (r'- 1\b', '- 2'), (r'\btrue\b', 'false'), (r'\bfalse\b', 'true'),
       (r'\bmin\b', 'max'), ('&&', '||'), (r'\|\|(?!\|)', '&&'), (r'\.bid\b(?! =>)', '.ask'), (r'\.ask\b(?! =>)', '.bid'),
       (r'\baddU\b', 'subU'), (r'\bsubU\b', 'addU'), (r'(?<=[ (])!(?=\w)', ''), (r'\b0\b', '1'), (r'(?<![\d^ ])(?<!\^ )\b1\b', '0'),
       (r'\bfindMin\b', 'findMax'), (r'\bfindMax\b', 'findMin'), (r'\bsome h\b', 'none'), (r'\.opposite\b', ''),
       (r'Floor\b', 'Ceil'), (r'Ceil\b', 'Floor'), (r'fp32Div\b', 'fp32MulFloor'), (r'\bfst\b', 'snd'), (r'\.1\b', '.2'), (r'\.2\b', '.1')]

def mutants(f):
    t = open(f'{RUN}/Verif/{f}.lean').read()
    # positions inside comments or import lines
    dead = [m.span() for m in re.finditer(r'/-.*?-/|--[^\n]*|^import[^\n]*|^deriving[^\n]*|\bderiving[^\n]*', t, re.S | re.M)]
    for pat, rep in OPS:
        for m in re.finditer(pat, t):
            if any(a <= m.start() < b for a, b in dead): continue
            line = t.count('\n', 0, m.start()) + 1
            text = t[:m.start()] + rep + t[m.end():]
            yield line, m.group(0), rep, t.split('\n')[line - 1].strip(), text

def main():
    mode = sys.argv[1]
    if mode == 'base': return base()
    if not os.path.exists(RUN): shutil.copytree(BASE, RUN, symlinks=True)
    place(RUN)
    out = sys.argv[2]
    done = {json.loads(l)['name'] for l in open(out)} if os.path.exists(out) else set()
    def put(d):
        with open(out, 'a') as fh: fh.write(json.dumps(d, ensure_ascii=False) + '\n')
        print(d['name'], d['verdict'], ' '.join(d.get('violated', [])) or d.get('detail', ''), flush=True)
    if mode == 'bugs':
        g = {}; exec(open(os.path.join(ROOT, 'seeded/bugs.py')).read(), g)
        seen = {str(g['BUGS'][n]['edits']) for n in done if n in g['BUGS']}
        for n, b in g['BUGS'].items():
            if n in done or (sys.argv[3:] and n not in sys.argv[3:]): continue
            if os.environ.get('MUT_MORE') and str(b['edits']) in seen: continue
            if os.environ.get('MUT_MORE') and not any(c in LATER for c in b['claims']): continue
            d = trial([e for e in b['edits'] if e[0].startswith('Model/')])
            put(dict(name=n, claims=b['claims'], **d))
            seen.add(str(b['edits']))
    else:
        for f in sys.argv[3:]:
            for line, old, new, src, text in list(mutants(f)):
                name = f'{f}:{line}:{old.strip()}>{new.strip()}:{hash_(text)}'
                if name in done: continue
                put(dict(name=name, file=f, line=line, old=old, new=new, src=src, **trial([(f, text)])))

def hash_(s):
    import hashlib
    return hashlib.sha1(s.encode()).hexdigest()[:8]

main()
