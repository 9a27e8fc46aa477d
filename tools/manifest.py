"""Writes /verif/MANIFEST.json.  Claim table: property -> (status, theorems, note)."""
import json

C={}
def c(pid,status,ths,note=''):
    C[pid]=dict(property=pid,status=status,theorems=['Verif.'+t for t in ths.split()],note=note)
exec(open('/verif/tools/claims.py').read())
ids=[json.loads(l)['id'] for l in open('/verif/properties.jsonl')]
json.dump({"claims":[C[i] for i in ids if i in C]},open('/verif/MANIFEST.json','w'),indent=1)
print(len(C),'claims;', 'missing:',[i for i in ids if i not in C])
