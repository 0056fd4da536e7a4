"""Prints names that are declared in more than one module."""
import collections, glob, os, re
os.chdir(os.path.join(os.path.dirname(__file__), '..', 'lean'))
declared = collections.defaultdict(set)
for f in glob.glob('Verif/**/*.lean', recursive=True):
    ns = []
    for line in open(f):
        if m := re.match(r'namespace (\S+)', line):
            ns.append(m.group(1))
        elif re.match(r'end (\S+)', line) and ns:
            ns.pop()
        elif m := re.match(r'(?:private |protected |@\[\w+\] )*(?:theorem|def|inductive|structure|abbrev|class) (\S+)', line):
            declared['.'.join(ns) + '.' + m.group(1)].add(f)
for name, files in declared.items():
    if len(files) > 1:
        print(name, *sorted(files))
