#!/usr/bin/env python3
"""Write seeded/LOG.jsonl from the raw output of mutate.py.  usage: mklog.py RAW.jsonl...   (later files win)

TIGHTENED and NOTES record what was done about edits that left the expected theorem standing."""
import json, os, sys
here = os.path.dirname(os.path.abspath(__file__))
TIGHTENED = {
    'P08': ['C78_mda', 'C78_ase_mda_agree'], 'O10': ['C32_variance_mstd', 'C32_variance_mscd'], 'O25': ['C84_msd', 'C84_mstd', 'C84_mscd'], 'L19': ['C87_fit'],
    'P12': ['C86_first_frame'], 'V04': ['C95_model_variance'], 'L21': ['C44_fit_window'], 'S04': ['C22_violated_explicit'], 'D08': ['C05_outcomes'], 'N01': ['C53_rejects_partial'],
}
NOTES = {
    'P06': 'control: equivalent edit, nothing may fail', 'T08': 'control', 'S14': 'control: the result is the same modulo one cell, only the lemma about the formula fails',
    'O23': 'control: equivalent by broadcasting',
    'P08': 'first run: nothing failed. The end to end theorems for MDAnalysis were added because of it.',
    'O10': 'first run: nothing failed, the variance was only stated for the MSD. Statements for MSTD and MSCD added.',
    'O25': 'first run: nothing failed, the bootstrap arrays were not covered. C84 added.',
    'L19': 'first run: nothing failed, the starting positions of the walkers were not covered. C87 added.',
    'P12': 'first run: only a lemma failed, no property was about the volume. C86 added.',
    'V04': 'first run: only a lemma failed, C42_model_psd holds for any model. The value of the model is now in C95.',
    'L21': 'first run: C44 said nothing about the numbers of samples. C44_fit_window now says that nothing before the window enters.',
    'S04': 'C23_shifted_convention_partial is about the other convention; the violation theorem of C22 fails.',
    'D08': 'first run: C05_outcomes assumed as many cells as frames. It now covers the mismatch.',
}
try:
    exec(open(os.path.join(os.path.dirname(here), 'seeded', 'notes.py')).read())
except FileNotFoundError:
    pass
recs = {}
for f in sys.argv[1:]:
    for l in open(f):
        r = json.loads(l)
        recs[r['id']] = r
out = []
for i, r in recs.items():
    d = {'id': i, 'definition': r['definition'], 'edit': r['edit'], 'claim_broken': r['claim_broken']}
    if 'failed_declarations' in r:
        d['theorems_failed'] = r['failed_property_theorems']
        d['theorems_using_a_failed_lemma'] = r['property_theorems_resting_on_a_failed_lemma']
        d['lemmas_failed'] = [x for x in r['failed_declarations'] if x not in r['failed_property_theorems']]
    else:
        d['theorems_failed'] = [x for x in r['failed'] if x.startswith('C') and x[1:3].isdigit()]
        d['lemmas_failed'] = [x for x in r['failed'] if x not in d['theorems_failed']]
        d['modules_blocked'] = r.get('blocked_modules', [])
    d['expected'] = r['expected']
    if r.get('stuck'):
        d['run_stopped_at'] = r['stuck']
    if r.get('only'):
        d['modules_built'] = r['only']
    d['theorems_tightened'] = TIGHTENED.get(i, [])
    if i in NOTES:
        d['note'] = NOTES[i]
    out.append(d)
with open(os.path.join(os.path.dirname(here), 'seeded', 'LOG.jsonl'), 'w') as f:
    for d in out:
        f.write(json.dumps(d, ensure_ascii=False) + '\n')
print(len(out), 'attempts;', sum(1 for d in out if not d['theorems_failed'] and not d.get('theorems_using_a_failed_lemma') and not d.get('lemmas_failed')), 'without effect')
