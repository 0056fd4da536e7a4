"""Writes Verif/Model/SavedFixups.lean from hun_law/fixups/replacement_fixups.py, which is read as text."""
import ast
import sys

SOURCE = '/repo/hun_law/fixups/replacement_fixups.py'
TARGET = '/verif/lean/Verif/Model/SavedFixups.lean'


def text(s):
    assert '\n' not in s
    return 'py"' + s.replace('\\', '\\\\').replace('"', '\\"') + '"'


def main():
    tree = ast.parse(open(SOURCE, encoding='utf-8').read())
    table, = [n.value for n in tree.body if isinstance(n, ast.AnnAssign) and n.target.id == 'replacement_fixups']
    out = ['import Verif.Model.Editor', '',
           '/-! # The saved replacements: /repo/hun_law/fixups/replacement_fixups.py', '',
           'Written by tools/fixups.py. -/', '', 'namespace Verif', '']
    names = []
    for i, (key, value) in enumerate(zip(table.keys, table.values)):
        act = ast.literal_eval(key)
        names.append(f'saved{i + 1}')
        out.append(f'/-- replacement_fixups.py:{key.lineno}-{value.end_lineno}. -/')
        out.append(f'def {names[-1]} : Str × List Replacement := ({text(act)}, [')
        rows = []
        for r in ast.literal_eval(value):
            assert set(r) <= {'needle', 'replacement', 'needle_prev_lines'}
            prev = r.get('needle_prev_lines')
            prev = 'none' if prev is None else 'some [' + ', '.join(map(text, prev)) + ']'
            rows.append(f'  ⟨{text(r["needle"])},\n    {text(r["replacement"])},\n    {prev}⟩')
        out.append(',\n'.join(rows) + '])')
        out.append('')
    out.append(f'/-- `replacement_fixups` (replacement_fixups.py:7-{table.end_lineno}). -/')
    out.append('def savedReplacements : Replacements := [')
    for i in range(0, len(names), 12):
        out.append('  ' + ', '.join(names[i:i + 12]) + (',' if i + 12 < len(names) else ']'))
    out += ['', 'end Verif', '']
    open(TARGET, 'w', encoding='utf-8').write('\n'.join(out))


if __name__ == '__main__':
    sys.exit(main())
