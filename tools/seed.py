#!/usr/bin/env python3
"""Try one wrong program: apply an edit to a scratch copy of the Lean project, replace every proof that
no longer checks by `sorry` (or, for the refinement lemmas an edit is expected to break when the reference engine
is edited alike, by a scratch-only axiom), and report which property theorems now depend on `sorry`.

usage: SEED_SRC=COPY seed.py strip (once), then SEED_SRC=COPY seed.py BUGS.py NAME... ; COPY is a built scratch copy
of /verif/lean, attempts live in /tmp/seed. With SEED_ONLY=1 an attempt builds only the modules that hold the theorems
of the claims it breaks, so other theorems are not looked at."""
import json, os, re, runpy, shutil, subprocess, sys

SRC, TMP = os.environ.get('SEED_SRC', '/verif/lean'), '/tmp/seed'
INVARIANT = re.compile(r'^Proofs/(Reach|RefInv):')
TOP = re.compile(r'^(?:@\[[^\]]*\]\s*)?(?:private |protected |noncomputable )*(theorem|lemma|example|def|instance|inductive|structure|abbrev|class)\b\s*([^\s:({\[]*)')

def decls(lines):
    """(start, end, kind, name) of the top-level declarations; bodies are indented."""
    out, i = [], 0
    while i < len(lines):
        m = TOP.match(lines[i])
        if m:
            j = i + 1
            while j < len(lines) and (lines[j].strip() == '' or lines[j][0] in ' \t' or lines[j].startswith('--')): j += 1
            out.append((i, j, m.group(1), m.group(2)))
            i = j
        else: i += 1
    return out

def split_statement(text):
    depth = 0
    for k, c in enumerate(text):
        if c in '([{⟨': depth += 1
        elif c in ')]}⟩': depth -= 1
        elif depth == 0 and text.startswith(':=', k): return text[:k]
        elif depth == 0 and c == '\n' and 'match ' not in text[:k] and re.match(r'\n\s+\| [^\n]*=>', text[k:]):
            return text[:k] + ' '
    return None

def strip():
    """Remove the examples of the scratch base, which only slow the attempts down."""
    for root, _, fs in os.walk(f'{SRC}/Verif'):
        for f in fs:
            p = f'{root}/{f}'; lines = open(p).read().split('\n')
            for a, b, kind, _ in reversed(decls(lines)):
                if kind != 'example': continue
                k = a
                while k > 0 and (lines[k-1].startswith('omit ') or lines[k-1].rstrip().endswith(' in')): k -= 1
                if k > 0 and lines[k-1].rstrip().endswith('-/'):
                    k -= 1
                    while not lines[k].startswith('/-'): k -= 1
                lines[k:b] = ['']
            open(p, 'w').write('\n'.join(lines))

def run(bug, name, log):
    d = f'{TMP}/{name}'
    shutil.rmtree(d, ignore_errors=True)
    subprocess.run(['cp', '-r', SRC, d], check=True)
    expected = re.compile(bug['expected']) if bug.get('expected') else None
    for f, old, new, *every in bug['edits']:
        p = f'{d}/Verif/{f}.lean'; s = open(p).read()
        if s.count(old) != 1 and not (every and old in s): raise SystemExit(f'{name}: edit of {f} matches {s.count(old)} times: {old!r}')
        open(p, 'w').write(s.replace(old, new))
    if expected:
        p = f'{d}/Verif/Model/Basic.lean'; s = open(p).read()
        open(p, 'w').write(s.replace('namespace AOB', 'namespace AOB\n\naxiom seedExpected {p : Prop} : p\naxiom seedInvariant {p : Prop} : p\n', 1))
    man = json.load(open('/verif/MANIFEST.json'))
    ths = [t for c in man['claims'] for t in c['theorems']]
    mods = ['Verif']
    if os.environ.get('SEED_ONLY'):
        want, mods = {t.split('.')[-1] for t in ths if t.split('.')[-1].split('_')[0] in bug['claims']}, []
        for root, _, fs in os.walk(f'{d}/Verif'):
            for f in fs:
                s = open(f'{root}/{f}').read()
                if any(re.search(rf'^(?:theorem|lemma) {t}\b', s, re.M) for t in want):
                    mods.append(os.path.relpath(f'{root}/{f}', d)[:-5].replace('/', '.'))
        ths = [t for t in ths if t.split('.')[-1] in want]
    broken, examples, gone, excused = [], 0, [], []
    for it in range(60):
        r = subprocess.run(['lake', 'build'] + mods, cwd=d, capture_output=True, text=True)
        out = r.stdout + r.stderr
        errs = re.findall(r'^error: (Verif/[\w/]+\.lean):(\d+):(\d+):(.*)', out, re.M)
        if r.returncode == 0: break
        if not errs: log.write(out[-3000:]); raise SystemExit(f'{name}: build failed without positions')
        byfile = {}
        for f, l, c, msg in errs: byfile.setdefault(f, []).append((int(l) - 1, msg))
        for f, ls in byfile.items():
            lines = open(f'{d}/{f}').read().split('\n')
            ds = decls(lines); todo = {}
            for l, msg in ls:
                hit = [t for t in ds if t[0] <= l < t[1]] or [t for t in ds if l < t[0] <= l + 8][:1]  # or its comment
                for t in hit: todo[t] = msg
            if not todo: raise SystemExit(f'{name}: error outside a declaration: {f} {ls}')
            for (a, b, kind, nm), msg in sorted(todo.items(), reverse=True):
                text = '\n'.join(lines[a:b])
                log.write(f'[{it}] {f}:{a+1} {kind} {nm}: {msg.strip()}\n'); log.flush()
                if kind == 'example':
                    examples += 1
                    # remove a doc comment / omit line in front as well
                    k = a
                    while k > 0 and (lines[k-1].startswith('omit ') or lines[k-1].rstrip().endswith(' in')): k -= 1
                    if lines[k-1].rstrip().endswith('-/'):
                        k -= 1
                        while not lines[k].startswith('/-'): k -= 1
                    lines[k:b] = ['' for _ in range(b - k)]
                elif kind in ('theorem', 'lemma'):
                    st = split_statement(text)
                    weak = ':= sorry' in text or ':= seedExpected' in text or ':= seedInvariant' in text
                    if weak or st is None:
                        gone.append(nm); lines[a:b] = [''] * (b - a)
                        k = a
                        while k > 0 and lines[k-1].rstrip().endswith(' in'): k -= 1; lines[k] = ''
                        if lines[k-1].rstrip().endswith('-/'):
                            k -= 1
                            while not lines[k].startswith('/-'): lines[k] = ''; k -= 1
                            lines[k] = ''
                        log.write(f'    removed {nm}\n')
                    else:
                        key = f'{f[6:-5]}:{nm}'
                        by = 'sorry'
                        if expected and expected.search(key): by = 'seedExpected'
                        elif expected and INVARIANT.search(key): by = 'seedInvariant'
                        (excused if by != 'sorry' else broken).append(nm)
                        new = (st.rstrip() + ' := ' + by).split('\n')
                        new += [''] * (b - a - len(new))
                        lines[a:b] = new
                else:
                    raise SystemExit(f'{name}: error in {kind} {nm} ({f}): {msg}')
            open(f'{d}/{f}', 'w').write('\n'.join(lines))
    else: raise SystemExit(f'{name}: does not converge')
    short = {t.split('.')[-1]: t for t in ths}
    missing = [g for g in gone if g.split('.')[-1] in short]
    keep = [t for t in ths if t.split('.')[-1] not in [g.split('.')[-1] for g in missing]]
    open(f'{d}/Audit.lean', 'w').write(''.join(f'import {m}\n' for m in mods) + '\n'.join(f'#print axioms {t}' for t in keep))
    a = subprocess.run(['lake', 'env', 'lean', 'Audit.lean'], cwd=d, capture_output=True, text=True)
    txt = re.sub(r'\n\s+', ' ', a.stdout)
    failed = [m[0] for m in re.findall(r"'([^']+)' depends on axioms: \[([^\]]*)\]", txt) if 'sorryAx' in m[1]]
    inv = sorted({m[0].split('.')[-1] for m in re.findall(r"'([^']+)' depends on axioms: \[([^\]]*)\]", txt) if 'seedInvariant' in m[1]})
    unknown = re.findall(r'error.*', a.stdout + a.stderr)
    failed = sorted(set(t.split('.')[-1] for t in failed) | set(missing))
    props = sorted({t.split('_')[0] for t in failed})
    allp = sorted({t.split('.')[-1].split('_')[0] for t in ths})
    res = dict(name=name, first_broken=broken[:400], excused=excused, removed=gone, examples=examples, failed=failed, via_invariant=[t for t in inv if t not in failed],
               props_failed=props, claims=bug['claims'], direct=sorted(t for t in failed if t in broken or t in gone), unknown=unknown[:5],
               target_ok=[c for c in bug['claims'] if c in props], target_missed=[c for c in bug['claims'] if c not in props])
    json.dump(res, open(f'{TMP}/{name}.json', 'w'), indent=1)
    shutil.rmtree(d, ignore_errors=True)
    return res

if __name__ == '__main__':
    if sys.argv[1] == 'strip':
        assert SRC != '/verif/lean'
        strip(); sys.exit(subprocess.run(['lake', 'build'], cwd=SRC).returncode)
    bugs = runpy.run_path(sys.argv[1])['BUGS']
    names = sys.argv[2:] or [b for b in bugs if not os.path.exists(f'{TMP}/{b}.json')]
    os.makedirs(TMP, exist_ok=True)
    for n in names:
        with open(f'{TMP}/{n}.log', 'w') as log:
            try:
                r = run(bugs[n], n, log)
                print(n, 'claims', r['claims'], 'missed', r['target_missed'], '| props failed:', ' '.join(r['props_failed']), '| via invariant:', ' '.join(sorted({t.split('_')[0] for t in r['via_invariant']} - set(r['props_failed']))), '| excused', ' '.join(r['excused']), '| direct', ' '.join(r['direct']), '| lemmas', ' '.join(b for b in r['first_broken'] if b not in r['direct']), flush=True)
            except SystemExit as e:
                print(n, 'ABORT', e, flush=True)
