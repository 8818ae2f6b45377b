# regenerates MANIFEST.json from the theorem names in lean/Verif/Props (names start with the property id)
import re,glob,json,collections
th=collections.defaultdict(list)
for f in sorted(glob.glob('/verif/lean/Verif/Props/*.lean')):
    ns=None
    for l in open(f):
        m=re.match(r'namespace (\S+)',l)
        if m: ns=m.group(1)
        m=re.match(r'(?:@\[[^\]]*\] )?theorem ((C\d+)\w*)',l)
        if m: th[m.group(2)].append(ns+'.'+m.group(1))
notes=json.load(open('/verif/notes.json'))
claims=[]
for l in open('/verif/properties.jsonl'):
    i=json.loads(l)['id']
    n=notes.get(i,{})
    if i in th:
        claims.append(dict(property=i,status=n.get('status','partial' if any(t.endswith('_partial') for t in th[i]) else 'proved'),theorems=th[i],note=n.get('note','')))
    elif n.get('status')=='not_applicable': claims.append(dict(property=i,status='not_applicable',theorems=[],note=n['note']))
json.dump({'claims':claims},open('/verif/MANIFEST.json','w'),indent=1)
print(len(claims),'claims')
