"""Writes DESIGN.md from tools/design_head.md, properties.jsonl, MANIFEST.json and the `#print axioms` lines of a build log
(lake build > log; design.py log)."""
import json,re,sys
ax={}
for m in re.finditer(r"'(\S+)' (depends on axioms: \[([^\]]*)\]|does not depend)",open(sys.argv[1]).read()):
    ax[m[1]]=[x.strip() for x in (m[3] or '').split(',') if x.strip()]
mark={'propext':'p','Quot.sound':'q','Classical.choice':'c'}
P=[json.loads(l) for l in open('/verif/properties.jsonl')]
M={c['property']:c for c in json.load(open('/verif/MANIFEST.json'))['claims']}
head=open('/verif/tools/design_head.md').read()
extra=''
try: extra=open('/verif/tools/design_models.md').read().rstrip('\n')
except FileNotFoundError: pass
head=head.replace('@@EXTRA_MODELS@@\n',extra+'\n' if extra else '')
o=[head]
for p in P:
    m=M.get(p['id'])
    if m and 'iolates' in m['note']:
        v=[t.split('.')[-1] for t in m['theorems'] if 'violated' in t or t.split('.')[-1] in ('C54_overflow','C54_small_limit','C55_silent','C79_ends_low','C75_narrow')]
        n=m['note']
        i=n.find('Code violates')
        n=n[i:] if i>=0 else n
        n=n.split(' Proved')[0]
        o.append('* **%s %s** (`%s`). %s\n'%(p['id'],p['title'],'`, `'.join(v),n))
o.append(open('/verif/tools/design_more.md').read())
o.append('''
## Properties and theorems

Axioms: `p` propext, `q` Quot.sound, `c` Classical.choice, `-` none. All names begin with `Verif.`.

| Id | Property | Status | Theorems (axioms) | Remarks |
|---|---|---|---|---|
''')
for p in P:
    m=M.get(p['id'])
    if not m: o.append('| %s | %s | open | | |\n'%(p['id'],p['title'])); continue
    ts=[]
    for t in m['theorems']:
        a=''.join(mark[x] for x in ax[t]) or '-'
        ts.append('`%s` (%s)'%(t[len('Verif.'):],a))
    o.append('| %s | %s | %s | %s | %s |\n'%(p['id'],p['title'],m['status'],', '.join(ts),m['note']))
open('/verif/DESIGN.md','w').write(''.join(o))
