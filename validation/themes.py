"""Compare lean/Verif/Model/Themes.lean with the code themes of the project, both read as text.

Run with any Python 3; prints one line for each theme and the differences, if any.
"""
import ast
import glob
import os
import re

HERE = os.path.dirname(os.path.abspath(__file__))
MODEL = os.path.join(HERE, '..', 'lean', 'Verif', 'Model', 'Themes.lean')
THEMES = '/repo/gopher_render/code_themes/*.py'


def model():
    themes = {}
    for m in re.finditer(r'def (\w+)Theme : List Rule :=\n  \[(.*?)\]\n\n', open(MODEL).read(), re.S):
        rules = []
        entry = r'themeRule py"([^"]*)" (\[.*?\])\s*(\[\]|\[\(.*?\)\])(?=,\s*themeRule|\s*$)'
        for e in re.finditer(entry, m.group(2), re.S):
            settings = {}
            for k, v in re.findall(r'\(py"([\w-]+)", \.\w+ (py"[^"]*"|\S+?)\)', e.group(3)):
                settings[k] = v[3:-1] if v.startswith('py"') else {'true': True, 'false': False}.get(v, v)
            rules.append((e.group(1), re.sub(r'\s', '', e.group(2)), settings))
        assert m.group(2).count('themeRule ') == len(rules), m.group(1)
        themes[m.group(1)] = rules
    return themes


def value(e, env):
    if isinstance(e, ast.Constant):
        return e.value
    if isinstance(e, ast.Name):
        return env.get(e.id, 'NAME:' + e.id)
    if isinstance(e, ast.Tuple):
        return tuple(value(x, env) for x in e.elts)
    if isinstance(e, ast.Dict):
        return {value(k, env): value(v, env) for k, v in zip(e.keys, e.values)}
    return 'OTHER:' + ast.unparse(e)


def source(path):
    env = {}
    for statement in ast.parse(open(path).read()).body:
        if isinstance(statement, ast.Assign):
            env[statement.targets[0].id] = value(statement.value, env)
    return env['renderers']


def tree(parts):
    t = ''
    for p in parts:
        e = 'dotpy"%s"' % p[1:] if p.startswith('.') else 'eltpy"%s"' % p
        t = 'under(%s)(%s)' % (t, e) if t else e
    return t


themes = model()
for path in sorted(glob.glob(THEMES)):
    name = os.path.basename(path)[:-3]
    if name == '__init__':
        continue
    rules = themes.pop(re.sub(r'_(\w)', lambda m: m.group(1).upper(), name))
    table = source(path)
    bad = 0
    if [r[0] for r in rules] != list(table):
        bad += 1
        print(name, 'keys differ')
    for key, sels, settings in rules:
        wanted = '[' + ','.join(tree(a.split()) for a in key.split(',')) + ']'
        if wanted != sels or table[key] != ('NAME:AnsiEscapeCodeRenderer', settings) or list(table[key][1]) != list(settings):
            bad += 1
            print(name, key, 'differs', table[key], settings, sels)
    print(name, len(rules), 'rules', bad, 'differences')
assert not themes, themes.keys()
