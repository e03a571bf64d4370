import json,sys
# usage: reg.py spec.json ; keys: prop, claim, model_row, plan_row, violation
d=json.load(open(sys.argv[1]))
with open('/verif/properties.jsonl','a') as f: f.write(json.dumps(d['prop'])+'\n')
with open('/verif/tools/claims.txt','a') as f: f.write(d['claim']+'\n')
s=open('/verif/DESIGN.md').read()
i=s.index("| C45 | main loop of"); s=s[:i]+d['plan_row']+'\n'+s[i:]
if d.get('violation'):
    i=s.index("`seeded/LOG.jsonl` records"); 
    k=s.rstrip  # keep
    # insert before preceding blank line
    pre=s[:i].rstrip('\n'); s=pre+'\n'+d['violation']+'\n\n'+s[i:]
if d.get('model_row'):
    a=d['model_after']; j=s.index(a); j=s.index('\n',j)+1; s=s[:j]+d['model_row']+'\n'+s[j:]
open('/verif/DESIGN.md','w').write(s)
v=open('/verif/lean/Verif.lean').read()
imp=f"import Verif.Props.{d['prop']['id']}\n"
if imp not in v: v=v.rstrip('\n')+'\n'+imp
open('/verif/lean/Verif.lean','w').write(v)
