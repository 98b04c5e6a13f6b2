#!/usr/bin/env python3
"""Apply one edit at a time to a scratch copy of the Lean project, rebuild, report which theorems fail.
usage: mutate.py mutations.json   (list of {"def","file","old","new","edit","breaks","tightened"})
Scratch copy: /tmp/mut/lean. Appends to /verif/seeded/LOG.jsonl."""
import json, os, re, subprocess, sys, shutil
SRC='/verif/lean'; DST='/tmp/mut/lean'
def sync():
    subprocess.run(['mkdir','-p',DST],check=True)
    subprocess.run(['rsync','-a','--delete','--checksum',SRC+'/',DST+'/'],check=True) if shutil.which('rsync') else subprocess.run(f'rm -rf {DST} && cp -a {SRC} {DST}',shell=True,check=True)
def enclosing(path,line):
    ls=open(path).read().split('\n')
    for i in range(line-1,-1,-1):
        m=re.match(r'\s*(?:@\[[^\]]*\]\s*)?(?:private |protected )?(theorem|example|def|lemma|instance|abbrev)\b\s*(\S*)',ls[i])
        if m: return (m.group(1), m.group(2) if m.group(1)!='example' else f'example@{os.path.basename(path)}:{i+1}')
    return ('?','?')
def main():
    muts=json.load(open(sys.argv[1])); only=sys.argv[2:]
    sync()
    weak=0
    for n,m in enumerate(muts):
        f=os.path.join(DST,'Verif',m['file']); orig=open(f).read()
        if orig.count(m['old'])!=1:
            print(n,'BAD PATTERN',orig.count(m['old']),m['def']); continue
        open(f,'w').write(orig.replace(m['old'],m['new']))
        p=subprocess.run('timeout 900 lake build Verif 2>&1',shell=True,cwd=DST,capture_output=True,text=True)
        fails=[]
        for e in re.finditer(r'^error: (Verif/\S+?\.lean):(\d+):\d+:',p.stdout,re.M):
            k=enclosing(os.path.join(DST,e.group(1)),int(e.group(2)))
            if k not in fails: fails.append(k)
        th=[x[1] for x in fails if x[0] in('theorem','lemma')]
        ex=[x[1] for x in fails if x[0]=='example']
        other=[x for x in fails if x[0] not in('theorem','lemma','example')]
        open(f,'w').write(orig)
        status='caught' if th else ('ONLY EXAMPLES' if ex else ('MODEL BROKEN' if other else 'NOT CAUGHT'))
        print(n,status,m['def'],'|',m['edit'],'|',th[:6],ex[:3],other[:3],flush=True)
        if th:
            with open('/verif/seeded/LOG.jsonl','a') as L:
                L.write(json.dumps({"definition":m['def'],"file":m['file'],"edit":m['edit'],"claim_broken":m['breaks'],"theorems_failed":th,"examples_failed":ex,"theorems_tightened":m.get('tightened',[])},ensure_ascii=False)+'\n')
        else: weak+=1
    # restore build
    subprocess.run('lake build Verif >/dev/null 2>&1',shell=True,cwd=DST)
    print('not caught by a theorem:',weak)
main()
