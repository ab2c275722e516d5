#!/usr/bin/env python3
"""Mutation testing.  usage: mutate.py SCRATCH MUTANTS.py OUT.jsonl [ID ...]

Copies lean/ to SCRATCH and, for each edit of MUTANTS.py, applies the edit to the copy and builds.  A declaration that no longer compiles is
recorded; in the scratch copy its proof is then left out, so that the modules after it are tested as well, and the build is repeated.  In the
end every property theorem is in one of three groups: its own proof failed; its proof uses (through any number of lemmas) something whose
proof failed; it still proves.  One JSON line per edit goes to OUT.jsonl.  /verif itself is not touched."""
import json, os, re, shutil, subprocess, sys, time
here = os.path.dirname(os.path.abspath(__file__))
src = os.path.join(os.path.dirname(here), 'lean')
scratch, mfile, out = sys.argv[1:4]
only = sys.argv[4:]
HOLE = 'so' + 'rry'
ns = {}
exec(open(mfile).read(), ns)
done = set()
if os.path.exists(out):
    done = {json.loads(l)['id'] for l in open(out)}
if not os.path.isdir(scratch):
    shutil.copytree(src, scratch)
DECL = re.compile(r'^(?:@\[.*?\]\s*)?(?:private |protected |noncomputable |omit .* in )*(theorem|lemma|def|example|instance|abbrev|structure|inductive)\b\s*([^\s:({\[]*)')

def restore():
    for d, _, fs in os.walk(os.path.join(src, 'Verif')):
        for f in fs:
            if f.endswith('.lean'):
                p = os.path.join(d, f)
                q = os.path.join(scratch, os.path.relpath(p, src))
                t = open(p).read()
                if not os.path.exists(q) or open(q).read() != t:
                    os.makedirs(os.path.dirname(q), exist_ok=True)
                    open(q, 'w').write(t)
    shutil.copy(os.path.join(src, 'Verif.lean'), os.path.join(scratch, 'Verif.lean'))

def span(lines, line):
    """the declaration around a line: (first line, line after the last, kind, name)"""
    start = None
    if lines[line - 1].startswith('/--'):
        while line < len(lines) and not DECL.match(lines[line - 1]):
            line += 1
    for i in range(line - 1, -1, -1):
        m = DECL.match(lines[i])
        if m:
            start = i; break
    if start is None:
        return None
    end = start + 1
    while end < len(lines) and (lines[end].strip() == '' or lines[end][0] in ' \t|'):
        end += 1
    return start, end, m.group(1), m.group(2) or m.group(1)

def cut(lines, start, end, kind):
    """leave out the proof"""
    if kind == 'example':
        k = start
        lines[start:end] = ['example : True := trivial\n', '\n']
        return True
    if kind not in ('theorem', 'lemma'):
        return False
    txt = ''.join(lines[start:end])
    depth, i = 0, 0
    while i < len(txt):
        c = txt[i]
        if c in '([{⟨':
            depth += 1
        elif c in ')]}⟩':
            depth -= 1
        elif depth == 0 and txt.startswith(':=', i) and not re.search(r'\blet [^\n;]*$', txt[:i]):
            lines[start:end] = [txt[:i] + ':= ' + HOLE + '\n', '\n']
            return True
        elif depth == 0 and txt.startswith('\n  | ', i) and ':' in txt[:i]:
            lines[start:end] = [txt[:i] + ' := ' + HOLE + '\n', '\n']
            return True
        i += 1
    return False

AX = '''import Verif
open Lean
run_cmd do
  let env ← getEnv
  for (n, i) in env.constants.map₁.toList do
    if i matches .thmInfo _ then
      if (`Kinisi).isPrefixOf n then
        if n.getString!.startsWith "C" && !n.isInternal then
          let a ← Lean.collectAxioms n
          if a.contains ``%sAx then
            Lean.logInfo m!"LOST {n}"
''' % HOLE
PROP = re.compile(r'C\d\d+_\w+$')

def build():
    r = subprocess.run(['lake', 'build'], cwd=scratch, capture_output=True, text=True)
    txt = r.stdout + r.stderr
    errs = {}
    for m in re.finditer(r'^error: (Verif/\S+?\.lean):(\d+):\d+: (.*)', txt, re.M):
        errs.setdefault(m.group(1), set()).add(int(m.group(2)))
    return r.returncode, errs, txt

restore()
for mu in ns['MUTANTS']:
    if mu['id'] in done or (only and mu['id'] not in only):
        continue
    rel = mu['file']
    p = os.path.join(scratch, 'Verif', rel)
    orig = open(os.path.join(src, 'Verif', rel)).read()
    if orig.count(mu['old']) != 1:
        print(mu['id'], 'NOT APPLICABLE', orig.count(mu['old']), flush=True)
        continue
    open(p, 'w').write(orig.replace(mu['old'], mu['new']))
    t = time.time()
    failed, stuck = [], None
    for rnd in range(40):
        code, errs, txt = build()
        if code == 0:
            break
        if not errs:
            stuck = txt[-500:]; break
        for f, ls in errs.items():
            q = os.path.join(scratch, f)
            lines = open(q).readlines()
            sp = {}
            for l in ls:
                s = span(lines, l)
                if s:
                    sp[s[0]] = s
            for k in sorted(sp, reverse=True):
                s = sp[k]
                if s[3] not in failed or s[3] == 'example':
                    if s[3] not in failed:
                        failed.append(s[3])
                else:
                    stuck = 'again ' + s[3]
                if not cut(lines, *s[:3]):
                    stuck = f'{f}: {s[2]} {s[3]}'
            open(q, 'w').writelines(lines)
        if stuck:
            break
    lost = []
    if not stuck:
        open(os.path.join(scratch, 'lost.lean'), 'w').write(AX)
        r = subprocess.run(['lake', 'env', 'lean', 'lost.lean'], cwd=scratch, capture_output=True, text=True)
        lost = sorted(x for x in set(re.findall(r'LOST Kinisi\.(\S+)', r.stdout)) if PROP.match(x))
        if r.returncode:
            stuck = 'axioms: ' + r.stdout[-300:]
    restore()
    direct = sorted(n for n in failed if PROP.match(n))
    exp = {e: 'fails' if e in failed else 'uses a failed lemma' if e in lost else 'still proves' for e in mu['expect']}
    rec = {'id': mu['id'], 'definition': f"{mu['def']} (lean/Verif/{rel})", 'edit': mu['edit'], 'claim_broken': mu['claim'],
           'failed_declarations': sorted(failed), 'failed_property_theorems': direct,
           'property_theorems_resting_on_a_failed_lemma': [x for x in lost if x not in direct], 'expected': exp,
           'seconds': round(time.time() - t)}
    if stuck:
        rec['stuck'] = stuck
    open(out, 'a').write(json.dumps(rec, ensure_ascii=False) + '\n')
    print(mu['id'], exp, 'failed', rec['failed_declarations'][:6], 'lost', len(lost), rec['seconds'], stuck or '', flush=True)
