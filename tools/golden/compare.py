#!/usr/bin/env python3
"""Run the model on the integration tests of /repo and compare with the golden files.

The golden files were written by the real program. The dump of the model follows the debug dump of tree-gen. Messages of
syntax errors are a parameter of the model, so only their places are compared. Positions of type nodes are not in the model.
This is a test of the correspondence between model and code; no proof depends on it.
"""
import collections, glob, os, re, shutil, subprocess, tempfile

R = '/repo/res/v3x/tests/integration/'
here = os.path.dirname(os.path.abspath(__file__))
tmp = tempfile.mkdtemp()
shutil.copy(here + '/dump.lean.txt', tmp + '/Dump.lean')
dirs = sorted(d.rstrip('/') for d in glob.glob(R + '*/*/'))
subprocess.run(['lake', 'env', 'lean', '--run', tmp + '/Dump.lean', tmp] + dirs, cwd=here + '/../../lean', check=True)


def golden(text):
    return re.sub(r'Type\( # .*', 'Type(', text)


def place(text):
    """The file and the range of a syntax error."""
    m = re.match(r'ERROR\n(Error at input.cq:[0-9:.]+): ', text)
    return m and m.group(1)


def raw_text(text):
    """The dumper of tree-gen drops trailing white space of strings and has its own form for several lines."""
    text = re.sub(r'backend_code: cqasm::v3x::primitives::Str<<(.*?)>>\n', r'backend_code: \1', text, flags=re.S)
    return re.sub(r'\s+', ' ', text)


count = collections.Counter()
for d in dirs:
    k = tmp + '/' + d[len(R):].replace('/', '@')
    parsed = os.path.exists(k + '.sem')
    for ext, g in (('ast', 'ast.golden.txt'), ('sem', 'semantic.3.0.golden.txt')):
        if ext == 'sem' and not parsed:
            continue  # the test stops after a syntax error; golden files left over are not looked at
        a, b = open(k + '.' + ext).read(), golden(open(d + '/' + g).read())
        if a == b or raw_text(a) == raw_text(b):
            count['same ' + ext] += 1
        elif place(a) and place(a) == place(b):
            count['same place of syntax error'] += 1
        else:
            count['different'] += 1
            print(d[len(R):], ext)
    g = d + '/semantic.3.0.golden.json'
    if os.path.exists(k + '.json') and os.path.exists(g):
        same = open(k + '.json').read() == open(g).read()
        count['same json' if same else 'different'] += 1
        if not same:
            print(d[len(R):], 'json')
print(dict(count))
