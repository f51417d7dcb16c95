"""Writes lean/Verif/Model/HelpTexts.lean (the help texts of /repo, as they are) and lean/Verif/Lemmas/HelpTexts.lean (that they are well-formed)."""
import ast, glob, os, re
R = '/repo/marcel/'
def lit(v):
    return 'chars! "' + ''.join({'"': '\\"', '\\': '\\\\', '\t': '\\t', '\n': '\\n'}.get(c, c) for c in v) + '"'
def help_of(f):
    for n in ast.parse(open(f).read()).body:
        if isinstance(n, ast.Assign) and getattr(n.targets[0], 'id', None) == 'HELP':
            return ast.literal_eval(n.value), n.lineno, n.end_lineno
    return None
def chunks(v):
    out, cur, depth = [], [], 0
    for l in v.splitlines(keepends=True):
        if sum(map(len, cur)) > 700 and depth == 0 and not l.startswith('{'):
            out.append(cur); cur = []
        cur.append(l)
        depth += len(re.findall(r'(?<!\\)\{', l)) - len(re.findall(r'(?<!\\)\}', l))
    return out + [cur]
ns = {}
exec(open(R + 'op/__init__.py').read(), ns)
docs = sorted(os.path.basename(f)[5:-3] for f in glob.glob(R + 'doc/help_*.py'))
o = ['''import Verif.Model.HelpTopics

/-! # The help texts that come with marcel

Generated by /verif/tools/mkhelp.py: the values of `HELP` in op/*.py and doc/help_*.py as they are (in pieces, to make it easier to check them), and the names in op/__init__.py. -/

namespace Marcel.Help

/-- The characters of a literal (a list, which the kernel can take apart faster than a string). -/
syntax "chars! " str : term

macro_rules
  | `(chars! $s:str) => do
    let cs := (s.getString.toList.map fun c => Lean.Syntax.mkCharLit c).toArray
    `([$cs,*])

/-- A text that is given in pieces of lines. -/
def partsOf (t : List (List Str)) : List Str := t.map List.flatten

/-- The text. -/
def joined (t : List (List Str)) : Str := (partsOf t).flatten
''']
l = ['''import Verif.Model.HelpTexts
import Verif.Lemmas.HelpCheck

/-! # The help texts that come with marcel are well-formed

Generated by /verif/tools/mkhelp.py. -/

namespace Marcel.Help
''']
def emit(name, f):
    h = help_of(f)
    if h is None: return False
    v, a, b = h
    assert ''.join(''.join(c) for c in chunks(v)) == v
    o.append(f'/-- {os.path.relpath(f, R)} {a}-{b} -/\ndef {name} : List (List Str) := [\n  ' + ',\n  '.join('[' + ',\n   '.join(lit(x) for x in c) + ']' for c in chunks(v)) + ']\n')
    l.append(f'theorem {name}_wf : checkPieces (partsOf {name}) = true := by decide +kernel\n')
    return True
ops = []
for n in ns['all']:
    ops.append((n, emit('op_' + n, R + f'op/{n}.py')))
for n in docs: emit('doc_' + n, R + f'doc/help_{n}.py')
o.append('/-- op/__init__.py 16-70 `public`: the operators that can be used in commands. -/\ndef publicOps : List Str := [\n  ' + ',\n  '.join(lit(n) for n in ns['public']) + ']\n')
o.append('/-- op/__init__.py 72-76 `all`, opmodule.py 24-45 and 85-89: the operators, and their help, if they have any. -/\ndef shippedOps : List (Str × Option Str) := [\n  ' + ',\n  '.join(f'({lit(n)}, {"some (joined op_" + n + ")" if h else "none"})' for n, h in ops) + ']\n')
o.append('/-- doc/: topics. -/\ndef shippedDocs : List (Str × Str) := [\n  ' + ',\n  '.join(f'({lit(n)}, joined doc_{n})' for n in docs) + ']\n')
o.append('/-- What comes with marcel. -/\ndef shipped : Sources := ⟨shippedOps, shippedDocs⟩\n')
o.append('end Marcel.Help')
l.append('theorem shippedOps_wf : ∀ t, (∃ n, (n, some t) ∈ shippedOps) → ∃ d : Doc, d.raw = t ∧ d.WF := by\n  rintro t ⟨n, h⟩\n  simp only [shippedOps, List.mem_cons, List.not_mem_nil, or_false, Prod.mk.injEq, Option.some.injEq, reduceCtorEq, and_false, false_or] at h\n  obtain ' +
  ' | '.join(f'⟨-, rfl⟩' for n, hh in ops if hh) + ' := h\n' + ''.join(f'  · exact checkPieces_sound op_{n}_wf\n' for n, hh in ops if hh))
l.append('theorem shippedDocs_wf : ∀ t, (∃ n, (n, t) ∈ shippedDocs) → ∃ d : Doc, d.raw = t ∧ d.WF := by\n  rintro t ⟨n, h⟩\n  simp only [shippedDocs, List.mem_cons, List.not_mem_nil, or_false, Prod.mk.injEq] at h\n  obtain ' +
  ' | '.join(f'⟨-, rfl⟩' for n in docs) + ' := h\n' + ''.join(f'  · exact checkPieces_sound doc_{n}_wf\n' for n in docs))
l.append('end Marcel.Help')
W = '/verif/lean/Verif/'
open(W + 'Model/HelpTexts.lean', 'w').write('\n'.join(o) + '\n')
open(W + 'Lemmas/HelpTexts.lean', 'w').write('\n'.join(l) + '\n')
