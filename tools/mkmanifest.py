"""Regenerate MANIFEST.json from the theorem names in lean/Verif/Props (prefix Cnn_) and the notes below."""
import glob, json, re, os
here = os.path.dirname(os.path.dirname(os.path.abspath(__file__)))
notes = json.load(open(os.path.join(here, 'tools', 'notes.json')))
thms = {}
for f in sorted(glob.glob(os.path.join(here, 'lean/Verif/Props/*.lean'))):
    src = open(f).read()
    scope = []
    for line in src.split('\n'):
        if m := re.match(r'namespace (\S+)', line):
            scope.append(m.group(1))
        elif (m := re.match(r'end (\S+)', line)) and scope and scope[-1] == m.group(1):
            scope.pop()
        elif m := re.match(r'(?:noncomputable )?theorem (C\d\d\w*)', line):
            thms.setdefault(re.match(r'C\d+', m.group(1)).group(), []).append('.'.join(scope + [m.group(1)]))
claims = []
for l in open(os.path.join(here, 'properties.jsonl')):
    pid = json.loads(l)['id']
    n = notes.get(pid, {})
    t = thms.get(pid, [])
    if not t and n.get('status') != 'not_applicable':
        continue
    status = n.get('status') or ('partial' if any(x.endswith(('_partial', '_false')) for x in t) else 'proved')
    claims.append({'property': pid, 'status': status, 'theorems': t, 'note': n.get('note', '')})
json.dump({'claims': claims}, open(os.path.join(here, 'MANIFEST.json'), 'w'), indent=1)
print(len(claims), 'claims', sum(len(c['theorems']) for c in claims), 'theorems')
