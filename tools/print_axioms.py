"""Adds `#print axioms` lines for the property theorems of every file under lean/Verif/Props."""
import re, glob
for f in sorted(glob.glob('/verif/lean/Verif/Props/*.lean')):
    s = open(f).read()
    ths = re.findall(r'^theorem (C\d+_\w+)', s, re.M)
    have = set(re.findall(r'^#print axioms (?:\w+\.)*(\w+)', s, re.M))
    new = [t for t in ths if t not in have]
    if not new: continue
    i = s.rindex('\nend Verif.')
    body = s[:i].rstrip('\n')
    s = body + ('\n' if body.split('\n')[-1].startswith('#print') else '\n\n') + ''.join(f'#print axioms {t}\n' for t in new) + s[i:]
    open(f, 'w').write(s)
    print(f, len(new))
