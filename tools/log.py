"""Writes seeded/LOG.jsonl, one line per attempt, from the results of the two ways of trying wrong programs:

  tools/seed.py   rebuilds the proofs on the wrong model            (/tmp/seed/NAME.json, 'theorems_failed')
  tools/mutate.py evaluates the statements on the wrong model       (/tmp/mut_*.jsonl, 'statements_violated')

seeded/bugs.py has the edits made by hand; the others are mechanical one-place edits. Attempts already logged are kept."""
import glob, json, os, re
ROOT = os.path.dirname(os.path.dirname(os.path.abspath(__file__)))
LOG = os.path.join(ROOT, 'seeded/LOG.jsonl')
g = {}; exec(open(os.path.join(ROOT, 'seeded/bugs.py')).read(), g)
BUGS = g['BUGS']
# what was changed in the statements because a wrong program went through
TIGHTENED = {
  'slab-header-bump-before-head': 'C73_slab_bytes: said nothing about the header and the free lists; now also SlabTree',
  'inner-prefix-first': 'C73_slab_bytes: said nothing about the inner nodes; now also SlabTree',
  'error-code-invalid-argument': 'C78_codes: only said that codes differ; now says what they are',
  'js-authority-writable': 'C74_signatures: now also says which accounts the client marks read-only',
  'wasm-leaf-price-half': 'C79_layout added: C79 did not say what the bytes of the old format are',
  'wasm-l2-empty-looked-at': 'C79_empty added: C79 said nothing about slabs without orders',
  'align-u128-chain': 'C92_slab: was also true of the host; now for every target but that with 16 byte alignment of u128',
  'meta-ro-writable': 'C74_signatures added: no statement said who has to sign',
  'meta-rw-signs': 'C74_signatures added: no statement said who has to sign',
  'register-size-40': 'C46_short_register_witness: was about a register of ORDER_SUMMARY_SIZE bytes, whatever that is; now about 41 bytes',
  'error-zero-code': 'C78_codes: was about the errors that occur; AlreadyInitialized has number 0 and does not',
  'dust-le': 'C61_traded_order added: no statement said when a traded order has to leave the book',
  'register-first-account': 'C46_entrypoint, C46_register_suffices, C46_call added: C46 was about the bytes only, not about where they go',
  'register-not-written': 'C46_entrypoint, C46_register_suffices, C46_call added: C46 was about the bytes only, not about where they go',
  'out-event-no-tag': 'C44_cast added: C44 did not say that what is read is of the kind that was written',
  'js-out-as-fill': 'C52_events: the fills of parseFill were told by the test of the client itself; now by the kind of the event',
  'js-create-tag': 'C58_createMarket_data added: only that it is refused was said, not what its data is',
  'js-target-read-only': 'C74_js_permitted added: what the client builds is permitted, if the target is the authority when closing',
  'wasm-l2-overwrites': 'C79 added: there was one example (C51_wasm_witness) and no theorem about find_l2_depth',
  'match-limit-counted-twice-on-self': 'C60_matching_exhaustive added: no statement said that matching must continue',
}
def definition(f, text):
    """The definition of the model that contains the edited text."""
    t = open(os.path.join(ROOT, f'lean/Verif/{f}.lean')).read()
    i = t.find(text)
    if i < 0: return f
    m = None
    for m in re.finditer(r'^(?:@\[[^\]]*\] )?(?:partial )?(?:def|structure|inductive|instance|abbrev|theorem)\s+(\S+)', t[:i + len(text)], re.M): pass
    return f'{f}: {m.group(1)}' if m else f
def deftext(f, line):
    t = open(os.path.join(ROOT, f'lean/Verif/{f}.lean')).read().split('\n')
    for k in range(min(line, len(t)) - 1, -1, -1):
        m = re.match(r'(?:@\[[^\]]*\] )?(?:partial )?(?:def|structure|inductive|instance|abbrev)\s*(\S*)', t[k])
        if m: return f'{f}: {m.group(1)}'
    return f
out = {}
if os.path.exists(LOG):
    for l in open(LOG):
        d = json.loads(l); out[d['attempt']] = d
mut = {}
for f in glob.glob('/tmp/mut_bugs*.jsonl'):
    for l in open(f):
        d = json.loads(l); mut[d['name']] = d
for n, b in BUGS.items():
    s = f'/tmp/seed/{n}.json'
    s = json.load(open(s)) if os.path.exists(s) else None
    if not s and n not in mut: continue
    es = [e for e in b['edits'] if e[0].startswith('Model/')] or b['edits']
    d = out.get(n, {})
    d.update(attempt=n, definition=sorted({definition(e[0], e[1]) for e in es}),
      edit=[{'file': f'lean/Verif/{e[0]}.lean', 'old': e[1], 'new': e[2]} for e in es], breaks=b['claims'],
      theorems_tightened=TIGHTENED.get(n, ''))
    if s:
        d['theorems_failed'] = s['failed']
        if s.get('excused'): d['lemmas_edited_alike'] = s['excused']
    if n in mut: d['statements_violated'] = mut[n].get('violated', [mut[n]['verdict']])
    d.setdefault('theorems_failed', [])
    out[n] = d
for f in glob.glob('/tmp/mut_auto*.jsonl'):
    for l in open(f):
        d = json.loads(l)
        if d['name'] in out: continue
        if d['verdict'] in ('error', 'stale', 'timeout'): continue  # does not compile, or does not end
        out[d['name']] = dict(attempt=d['name'], definition=[deftext(d['file'], d['line'])],
          edit=[{'file': f"lean/Verif/{d['file']}.lean", 'line': d['line'], 'source': d['src'], 'old': d['old'], 'new': d['new']}],
          breaks=sorted({v.split('_')[0] for v in d.get('violated', []) if re.match(r'C\d\d+', v)}),
          theorems_failed=[], statements_violated=d.get('violated', []), theorems_tightened='')
with open(LOG, 'w') as fh:
    for d in out.values():
        if not d['theorems_failed'] and not d.get('statements_violated') and ':' in d['attempt']: d['note'] = 'no statement violated on the random histories tried'
        fh.write(json.dumps(d, ensure_ascii=False) + '\n')
print(len(out))
