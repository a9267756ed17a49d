"""Compares the class table of lean/Verif/Model/Leaf.lean with the text of /repo (parsed, never executed)."""
import ast, re, glob, sys
classes = {}
for f in sorted(glob.glob('/repo/spine_json_lib/data/data_types/*.py')) + ['/repo/spine_json_lib/data/spine_anim_data.py']:
    for n in ast.parse(open(f).read()).body:
        if not isinstance(n, ast.ClassDef): continue
        c = dict(attrs=[], required=[], unsupportedOld=[], orStyle=None, line=(n.lineno))
        for s in n.body:
            t = None
            if isinstance(s, ast.Assign): t, v = s.targets[0].id, s.value
            if isinstance(s, ast.AnnAssign): t, v = s.target.id, s.value
            if t == 'DEFAULT_VALUES': c['defaults'] = ast.literal_eval(v)
            if t == 'SPINE_3_8_DEFAULT_VALUES': c['defaults38'] = c['defaults'] if isinstance(v, ast.Name) else ast.literal_eval(v)
            if t == 'REQUIRED': c['required'] = ast.literal_eval(v)
            if t == 'UNSUPPORTED_VALUES_OLD_VERSION': c['unsupportedOld'] = ast.literal_eval(v) or []
            if isinstance(s, ast.FunctionDef) and s.name == '__init__':
                for x in s.body:
                    if isinstance(x, ast.Assign) and isinstance(x.targets[0], ast.Name): c['orStyle'] = isinstance(x.value, ast.BoolOp)
                    tg = x.targets[0] if isinstance(x, ast.Assign) else getattr(x, 'target', None)
                    if isinstance(tg, ast.Attribute):
                        c['attrs'].append(tg.attr)
                        v = x.value
                        if not (isinstance(v, ast.Call) and isinstance(v.func, ast.Attribute) and v.func.attr == 'get' and len(v.args) == 1 and v.args[0].value == tg.attr): c['composite'] = True
        classes[n.name] = c
src = ''.join(open('/verif/lean/Verif/Model/%s.lean' % m).read() for m in ('Leaf', 'Traverse'))
def lit(v):
    if v is None: return '.null'
    if v is True or v is False: return '.bool ' + str(v).lower()
    if isinstance(v, float): assert v == 1.0; return 'jone'
    if isinstance(v, int): return '.int %d' % v
    if isinstance(v, str): return '.str s!!"%s"' % v if v else '.str []'
    if v == {}: return '.dict []'
    assert v == [], v
    return '.list []'
ok = 0
for m in re.finditer(r'/-- `(\w+)` \((\w+\.py) (\d+)-(\d+)\)[^\n]*-/\ndef (\w+) : Cls F where\n(.*?)\n\n', src, re.S):
    name, body = m.group(1), re.sub(r'\s+', ' ', m.group(6))
    c = classes[name]
    S = lambda l: '[' + ', '.join('s!!"%s"' % x for x in l) + ']'
    D = lambda d: '[' + ', '.join('(s!!"%s", %s)' % (k, lit(v)) for k, v in d.items()) + ']'
    want = 'attrs := %s defaults := %s defaults38 := %s required := %s unsupportedOld := %s orStyle := %s' % (
        S(c['attrs']), D(c['defaults']), D(c['defaults38']), S(c['required']), S(c['unsupportedOld']), str(c['orStyle']).lower())
    if ' '.join(body.split()) != want: print('DIFF', name, '\n ', body, '\n ', want)
    elif c['line'] != int(m.group(3)): print('CHECK', name, c['line'])
    else: ok += 1
    c['seen'] = True
print(ok, 'classes agree; not in the tables:', [k for k, c in classes.items() if not c.get('seen')])
# the members of SpineData that are not None (Model/Interfaces.lean, baseMembers); None is overridden before an instance exists for the two tables
base = [n for n in ast.parse(open('/repo/spine_json_lib/data/data_types/base_type.py').read()).body if isinstance(n, ast.ClassDef) and n.name == 'SpineData'][0]
want = []
for s in base.body:
    if isinstance(s, ast.AnnAssign) and s.target.id != 'UNSUPPORTED_VALUES_OLD_VERSION': want.append(s.target.id)
    if isinstance(s, ast.FunctionDef) and not s.name.startswith('__'): want.append(s.name)
text = open('/verif/lean/Verif/Model/Interfaces.lean').read()
have = re.findall(r's!!"(\w+)"', text[text.index('def baseMembers'):])
print('members of SpineData agree' if have == want else 'DIFF members %s %s' % (have, want))
