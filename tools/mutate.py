#!/usr/bin/env python3
"""Seeded-bug runner. Usage: mutate.py mutants.json  (works in /tmp/scratch/lean, a copy of /verif/lean).
Each mutant: {"file","old","new","definition","edit","claim"}. Prints and appends one JSON line per mutant to
the given log; `theorems_failed` are the declarations with errors, `modules_failed` the property modules that no
longer build."""
import json,os,re,subprocess,sys,shutil
SRC=os.environ.get('MUT_SRC','/verif/lean'); DST='/tmp/scratch/lean'
def sync():
    subprocess.run(['rsync','-a','--delete','--exclude=.lake',SRC+'/',DST+'/'],check=True) if shutil.which('rsync') else subprocess.run(f'cd {SRC} && find . -name "*.lean" -not -path "./.lake/*" | while read f; do cmp -s "$f" "{DST}/$f" || (mkdir -p "$(dirname {DST}/$f)"; cp "$f" "{DST}/$f"); done',shell=True,check=True)
def decl_at(path,line):
    L=open(path).read().split('\n')
    for i in range(min(line,len(L))-1,-1,-1):
        m=re.match(r'\s*(?:@\[.*\]\s*)?(?:private )?(theorem|lemma|def|instance|example|structure)\s*(\S*)',L[i])
        if m: return m.group(2) if m.group(1)!='example' and m.group(2) else m.group(1)+f'@{i+1}'
    return '?'
def main():
    muts=json.load(open(sys.argv[1])); log=sys.argv[2]
    for m in muts:
        sync()
        p=os.path.join(DST,'Verif',m['file']); s=open(p).read()
        if s.count(m['old'])!=1:
            print('BAD MUTANT',m['definition'],m['edit'],s.count(m['old'])); continue
        open(p,'w').write(s.replace(m['old'],m['new']))
        r=subprocess.run('lake build '+m.get('targets',os.environ.get('MUT_TARGETS',''))+' 2>&1',shell=True,cwd=DST,capture_output=True,text=True).stdout
        th=[]
        for e in re.finditer(r'^error: (?:\./)?(Verif/\S+\.lean):(\d+):\d+',r,re.M):
            d=decl_at(os.path.join(DST,e.group(1)),int(e.group(2)))
            d=d if not d.startswith('example') else os.path.basename(e.group(1))+':'+d
            if d not in th: th.append(d)
        # property modules that cannot be built
        props=sorted({x for x in re.findall(r'^- Verif\.(\S+)',r,re.M)})
        imp={}
        for root,_,fs in os.walk(os.path.join(DST,'Verif')):
            for f in fs:
                q=os.path.join(root,f); n=os.path.relpath(q,DST)[:-5].replace('/','.')
                imp[n]=re.findall(r'^import (Verif\.\S+)',open(q).read(),re.M)
        bad={'Verif.'+x for x in props}
        ch=True
        while ch:
            ch=False
            for n,i in imp.items():
                if n not in bad and any(k in bad for k in i): bad.add(n); ch=True
        bp=sorted(x.split('.')[-1] for x in bad if '.Props.' in x)
        out={'definition':m['definition'],'edit':m['edit'],'claim_broken':m['claim'],'theorems_failed':th,'properties_not_reproved':bp,'theorems_tightened':m.get('tightened',[])}
        print(('SURVIVED ' if not th else 'killed ')+m['definition']+' | '+m['edit']+' | '+', '.join(th[:6])+' | '+' '.join(bp),flush=True)
        open(log,'a').write(json.dumps(out)+'\n')
        shutil.copy(os.path.join(SRC,'Verif',m['file']),p)
main()
