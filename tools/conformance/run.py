"""Run the model on what the tests in /repo/tests/cheap expect of the program.

The tests are only read as text: the tables of expected values in them are turned into Lean expressions, nothing of
/repo is executed. Needs a finished `lake build`. Usage: python3 tools/conformance/run.py
"""
import ast
import glob
import json
import os
import re
import subprocess
import sys
import tempfile

HERE = os.path.dirname(os.path.abspath(__file__))
LEAN = os.path.join(HERE, '..', '..', 'lean')
TESTS = '/repo/tests/cheap/'
TMP = tempfile.mkdtemp()


def lean(name, text, *args):
    path = os.path.join(TMP, name)
    with open(path, 'w') as f:
        f.write(text)
    cmd = ['lake', 'env', 'lean'] + (['--run'] if args else []) + [path] + list(args)
    r = subprocess.run(cmd, cwd=LEAN, stdout=subprocess.PIPE, stderr=subprocess.STDOUT, text=True)
    return r.returncode, r.stdout


def read(name):
    with open(name) as f:
        return f.read()


def tree(name):
    return ast.parse(read(TESTS + name))


''' The sentences of tests/cheap/grammar '''


def fi(x):
    return '-' if x is None else x[0] + '..' + x[1] if isinstance(x, tuple) else x


def ref(act=None, article=None, paragraph=None, point=None, subpoint=None):
    return 'R(' + '|'.join(fi(x) for x in (act, article, paragraph, point, subpoint)) + ')'


def structural(act=None, book=None, part=None, title=None, chapter=None, subtitle=None, special=None):
    return 'S(' + '|'.join(fi(x) for x in (act, book, part, title, chapter, subtitle, special)) + ')'


EXPECTED = {
    'ref': ref,
    'Reference': ref,
    'StructuralReference': structural,
    'SubtitleArticleCombo': lambda t, s: t + ':' + s,
    'BlockAmendment': lambda position=None, pure_insertion=False: 'BA %s %s' % (position, str(pure_insertion).lower()),
    'EnforcementDate': lambda position=None, date=None, repeal_date=None: 'ED %s %s %s' % (fi(position), date, fi(repeal_date)),
    'Date': lambda year, month, day: 'D%d-%d-%d' % (year, month, day),
    'DaysAfterPublication': lambda days=1: 'AP%d' % days,
    'DayInMonthAfterPublication': lambda day=1, months=1: 'DIM %d %d' % (day, months),
    'TextAmendment': lambda position=None, original_text=None, replacement_text=None: 'TA %s %s => %s' % (position, original_text, replacement_text),
    'ArticleTitleAmendment': lambda position=None, original_text=None, replacement_text=None: 'ATA %s %s => %s' % (position, original_text, replacement_text),
    'Repeal': lambda position=None, text=None: 'RP %s %s' % (position, fi(text)),
    'ActIdAbbreviation': lambda a, b: 'AB %s = %s' % (a, b),
}


def value(n):
    if isinstance(n, ast.Constant):
        return n.value
    if isinstance(n, (ast.Tuple, ast.List)):
        return tuple(value(x) for x in n.elts)
    if isinstance(n, ast.Attribute):
        return n.attr
    if isinstance(n, ast.Call):
        f = EXPECTED.get(n.func.id)
        if f is None:
            return n.func.id
        return f(*[value(a) for a in n.args], **{k.arg: value(k.value) for k in n.keywords})
    raise ValueError(ast.dump(n))


def table(file, name):
    for s in tree('grammar/' + file).body:
        if isinstance(s, (ast.AnnAssign, ast.Assign)):
            target = s.target if isinstance(s, ast.AnnAssign) else s.targets[0]
            if target.id == name:
                return value(s.value)
    raise KeyError(name)


def quoted(s):
    return '"' + s.replace('\\', '\\\\').replace('"', '\\"') + '"'


def sentences():
    out = []
    for c in table('test_references.py', 'CASES'):
        out.append((0, c[0], '', '') if c[2] is None else (1, c[0], c[1] or '', ';'.join(c[2]) + '#' + ';'.join(c[3])))
    for c in table('test_block_amendments.py', 'BLOCK_AMENDMENT_CASES'):
        out.append((2, c[0], '', c[1]))
    for f in ('enforcement_date', 'repeals', 'text_amendment', 'article_title_amendment'):
        for c in table('test_%s.py' % f, 'CASES'):
            out.append((2, c[0], '', ';'.join(c[1])))
    for c in table('test_abbreviations.py', 'ABBREVIATION_CASES'):
        out.append((3, c[0], '', ';'.join(c[1])))
    text = 'import Verif.Model.ActGrammar\nopen Verif\ndef cases : List (Nat × String × String × String) := [\n' + \
        ',\n'.join('(%d,%s,%s,%s)' % (a, quoted(b), quoted(c), quoted(d)) for a, b, c, d in out) + ']\n'
    print('sentences:', lean('Sentences.lean', text + read(os.path.join(HERE, 'sentences.txt')))[1].strip())


''' The texts of tests/cheap/structure and test_semantic_parser.py '''


def differences(expected, got, path=()):
    if isinstance(expected, dict):
        if not isinstance(got, dict):
            return [path]
        out = []
        for k in set(expected) | set(got):
            if k == '__type__' and k not in expected or k == 'special' and not got.get(k) and k not in expected:
                continue
            if k not in expected or k not in got:
                out.append(path + (k,))
            else:
                out += differences(expected[k], got[k], path + (k,))
        return out
    if isinstance(expected, list):
        if not isinstance(got, list) or len(expected) != len(got):
            return [path]
        return [d for i, (a, b) in enumerate(zip(expected, got)) for d in differences(a, b, path + (i,))]
    return [] if expected == got else [path]


def acts(mode, texts):
    files = []
    for i, t in enumerate(texts):
        files.append(os.path.join(TMP, '%s%d.txt' % (mode, i)))
        with open(files[-1], 'w') as f:
            f.write(t)
    rc, out = lean('Acts.lean', read(os.path.join(HERE, 'acts.txt')), mode, *files)
    if rc != 0:
        sys.exit(out)
    return [json.loads(read(f + '.out')) for f in files]


def structures():
    names = sorted(glob.glob(TESTS + 'structure/data/*.txt'))
    good = 0
    for n, a in zip(names, acts('s', [read(n) for n in names])):
        d = differences(json.loads(read(n.replace('.txt', '.json'))), a)
        good += not d
        if d:
            print(n, d)
    print('structures: %d of %d' % (good, len(names)))


def block_amendments():
    texts = re.findall(r'def (test_\w+)\(.*?"""(.*?)"""', read(TESTS + 'structure/test_block_amendment_parsing.py'), re.S)

    def outline(n, depth):
        print('  ' * depth + n['__type__'], *('%s=%r' % (k, v) for k, v in sorted(n.items()) if k not in ('children', '__type__')))
        for c in n.get('children', []):
            outline(c, depth + 1)
    for (name, _), a in zip(texts, acts('b', [t for _, t in texts])):
        print(name)
        for c in a['children']:
            outline(c, 1)


def semantic_value(n):
    if isinstance(n, ast.Constant):
        return n.value
    if isinstance(n, (ast.Tuple, ast.List)):
        return [semantic_value(x) for x in n.elts]
    f, a, k = n.func.id, [semantic_value(x) for x in n.args], {x.arg: semantic_value(x.value) for x in n.keywords}
    if f in ('ref', 'Reference', 'StructuralReference'):
        names = ['act', 'book'] if f[0] == 'S' else ['act', 'article', 'paragraph', 'point', 'subpoint']
        d = {x: y for x, y in dict(zip(names, a), **k).items() if y is not None}
        return dict(d, struct=True) if f[0] == 'S' else d
    if f == 'OutgoingReference':
        return {'start': a[0], 'end': a[1], 'ref': a[2]}
    d = {x.replace('_text', ''): y for x, y in k.items()} if f != 'Repeal' else k
    return dict({'pure': False} if f == 'BlockAmendment' else {}, kind=f, **d)


def element(act, r):
    e = [c for c in act['children'] if c['__type__'] == 'Article' and c['identifier'] == r['article']][0]
    e = [c for c in e['children'] if 'paragraph' not in r or c.get('identifier') == r['paragraph']][0]
    for k in ('point', 'subpoint'):
        if k in r:
            e = [c for c in e['children'] if c.get('identifier') == r[k]][0]
    return e


def semantics():
    cases = [(s.target.id, c) for s in tree('test_semantic_parser.py').body if isinstance(s, ast.AnnAssign) for c in s.value.elts]
    good = n = 0
    for (name, c), act in zip(cases, acts('e', [c.elts[0].value for _, c in cases])):
        for r, data in semantic_value(c.elts[1]):
            e = element(act, r)
            if name == 'CASES_WITH_POSITIONS':
                ok = e['references'] == [data]
            else:
                ok = [o['ref'] for o in e['references']] == [d for d in data if 'kind' not in d] and \
                    e['semantic'] == [d for d in data if 'kind' in d]
            n += 1
            good += ok
            if not ok:
                print(r, data, e)
    print('semantics: %d of %d' % (good, n))


''' test_structure_classes.py and test_utils.py '''


def reference(n):
    names = ['act', 'article', 'paragraph', 'point', 'subpoint']
    d = dict(zip(names, (ast.literal_eval(x) for x in n.args)))
    d.update({x.arg: ast.literal_eval(x.value) for x in n.keywords})

    def ident(x):
        if x is None:
            return 'none'
        return 'some (.one "%s".toList)' % x if isinstance(x, str) else 'some (.range "%s".toList "%s".toList)' % x
    act = 'none' if d.get('act') is None else 'some "%s".toList' % d['act']
    return '({ act := %s, %s } : Reference)' % (act, ', '.join('%s := %s' % (k, ident(d.get(k))) for k in names[1:]))


NEXT = {
    'Article': ['articleIsNext'],
    'numeric_cls': ['SaeKind.isNextIdentifier .' + k for k in ('paragraph', 'numericPoint', 'numericSubpoint')],
    'AlphabeticPoint': ['SaeKind.isNextIdentifier .alphabeticPoint'],
    'AlphabeticSubpoint': ['SaeKind.isNextIdentifier .alphabeticSubpoint'],
}
FUNCTIONS = {
    'text_to_int_hun': 'textToIntHun', 'int_to_text_hun': 'intToTextHun', 'text_to_int_roman': 'textToIntRoman',
    'int_to_text_roman': 'intToTextRoman', 'roman_to_arabic_with_postfix': 'romanToArabicWithPostfix',
    'arabic_to_roman_with_postfix': 'arabicToRomanWithPostfix', 'identifier_less': 'identifierLess',
    'from_hungarian_text': 'Date.fromHungarianText', 'from_simple_string': 'Date.fromSimpleString', 'Date': 'mkDate',
}
FLIPPED = {'lt': 'gt', 'gt': 'lt', 'le': 'ge', 'ge': 'le'}


def test_of(n):
    if isinstance(n.test, ast.UnaryOp) and isinstance(n.test.op, ast.Not):
        return n.test.operand, 'false'
    return n.test, 'true'


def term(x):
    if isinstance(x, ast.Constant):
        return '"%s".toList' % x.value if isinstance(x.value, str) else '(%d : Int)' % x.value
    if isinstance(x, ast.Call) and isinstance(x.func, ast.Name) and x.func.id == 'Date':
        return '(⟨%s⟩ : Verif.Date)' % ', '.join(str(y.value) for y in x.args)
    return None


def call(t):
    if not isinstance(t, ast.Call):
        return None
    f = t.func.id if isinstance(t.func, ast.Name) else t.func.attr
    if f == 'add_days':
        return '(Date.addDays %s %s)' % (term(t.func.value), term(t.args[0]))
    if f in FUNCTIONS and all(term(x) for x in t.args):
        return '(%s %s)' % (FUNCTIONS[f], ' '.join(term(x) for x in t.args))
    return None


def functions():
    out = []
    for n in ast.walk(tree('test_structure_classes.py')):
        if isinstance(n, ast.Assert):
            t, b = test_of(n)
            f = t.func.attr if isinstance(t, ast.Call) and isinstance(t.func, ast.Attribute) else None
            if f == 'is_next_identifier':
                for g in NEXT[t.func.value.id]:
                    out.append('okB (%s %s) %s' % (g, ' '.join(term(x) for x in t.args), b))
            elif f == 'contains':
                out.append('okB (Reference.contains %s %s) %s' % (reference(t.func.value), reference(t.args[0]), b))
            elif f == 'is_parent_of' and isinstance(t.func.value, ast.Call):
                out.append('Reference.isParentOf %s %s == %s' % (reference(t.func.value), reference(t.args[0]), b))
        elif isinstance(n, ast.Assign) and n.targets[0].id == 'REFERENCE_ORDERING_CASES':
            for e in n.value.elts[0].elts if not isinstance(n.value.elts[0].elts[0], ast.Call) else n.value.elts:
                a, o, b = reference(e.elts[0]), e.elts[1].value, reference(e.elts[2])
                for f, ops in (('lt', '<'), ('gt', '>'), ('le', '<='), ('ge', '>=')):
                    out.append('okB (Reference.%s %s %s) %s' % (f, a, b, str(o in ops).lower()))
                    out.append('okB (Reference.%s %s %s) %s' % (FLIPPED[f], b, a, str(o in ops).lower()))
        elif isinstance(n, ast.Assign) and n.targets[0].id == 'RELATIVE_ID_CASES':
            for e in n.value.elts:
                out.append('okIs (Reference.fromRelativeIdString (Reference.relativeIdString %s)) %s' % (reference(e), reference(e)))
    for n in ast.walk(tree('test_utils.py')):
        if isinstance(n, ast.Assert):
            t, b = test_of(n)
            if isinstance(t, ast.Compare) and call(t.left) and term(t.comparators[0]):
                c, v = call(t.left), term(t.comparators[0])
                v = v.replace(': Int', ': Nat') if 'textToInt' in c else v
                out.append('%s == %s' % (c, v) if 'intToTextRoman' in c else 'okIs %s %s' % (c, v))
            elif call(t):
                out.append('okB %s %s' % (call(t), b))
        elif isinstance(n, ast.With) and isinstance(n.body[0], ast.Expr) and call(n.body[0].value):
            out.append('isErr .valueError %s' % call(n.body[0].value))
    text = '''import Verif.Model.Structure
open Verif
def okB (r : Res Bool) (b : Bool) : Bool := match r with | .ok x => x == b | .error _ => false
def okIs {α : Type} [BEq α] (r : Res α) (b : α) : Bool := match r with | .ok x => x == b | .error _ => false
def isErr {α : Type} (e : Err) (r : Res α) : Bool := match r with | .ok _ => false | .error x => x == e
''' + ''.join('#guard %s\n' % g for g in out)
    rc, o = lean('Functions.lean', text)
    print('functions: %d of %d' % (len(out) - o.count('error:'), len(out)))
    if rc:
        print(o)


if sys.argv[1:] == ['blocks']:
    block_amendments()
else:
    functions()
    sentences()
    structures()
    semantics()
