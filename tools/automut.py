#!/usr/bin/env python3
"""Systematic one-token mutations of the model. usage: automut.py seed count_per_def [file ...]
Scratch copy /tmp/auto/lean; results appended to /verif/seeded/AUTO.jsonl; survivors printed."""
import json, os, re, random, subprocess, sys, signal, time
SRC='/verif/lean'; DST='/tmp/auto/lean'; OUT='/verif/seeded/AUTO.jsonl'
rnd=random.Random(int(sys.argv[1])); K=int(sys.argv[2]); only=sys.argv[3:]
subprocess.run(f'mkdir -p /tmp/auto && rsync -a --delete --checksum {SRC}/ {DST}/' if os.path.exists('/usr/bin/rsync') else f'rm -rf {DST} && mkdir -p /tmp/auto && cp -a {SRC} {DST}',shell=True,check=True)
def enclosing(path,line):
    ls=open(path).read().split('\n')
    for i in range(line-1,-1,-1):
        m=re.match(r'\s*(?:@\[[^\]]*\]\s*)?(?:private |protected |noncomputable )?(theorem|example|def|lemma|instance|abbrev)\b\s*(\S*)',ls[i])
        if m: return (m.group(1), m.group(2) if m.group(1)!='example' else f'example@{os.path.basename(path)}:{i+1}')
    return ('?','?')
def strip_comments(s):
    # replace comments by spaces, keep positions
    def sp(m): return re.sub(r'[^\n]',' ',m.group(0))
    s=re.sub(r'/-.*?-/',sp,s,flags=re.S); s=re.sub(r'--[^\n]*',sp,s); return s
OPS=[(r'(?<![\w.])0x[0-9a-fA-F]+|(?<![\w.])\d+(?![\w])','lit'),(r' < ',' ≤ '),(r' ≤ ',' < '),(r' > ',' ≥ '),(r' ≥ ',' > '),(r' && ',' || '),(r' \|\| ',' && '),
 (r' ∧ ',' ∨ '),(r' ∨ ',' ∧ '),(r' == ',' != '),(r' != ',' == '),(r'(?<=if )([^:=\n]*?) = ','ne'),(r' ≠ ',' = '),(r' \+ (?!\+)',' - '),(r' - ',' + '),(r'\btrue\b','false'),(r'\bfalse\b','true'),
 (r'\.1\b','.2'),(r'\.2\b','.1'),(r'\.take\b','.drop'),(r'\.drop\b','.take'),(r'\.reverse\b',''),(r' &&& ',' ||| '),(r' \|\|\| ',' &&& '),(r' \* ',' + '),(r' / ',' % '),(r' % ',' / '),
 (r'\.any\b','.all'),(r'\.all\b','.any'),(r'isSome','isNone'),(r'isNone','isSome'),(r'isEmpty','length == 1'),(r'head\?','getLast?'),(r' << < ',''),(r'<<<','>>>'),(r'>>>','<<<'),(r' min ',' max '),(r' max ',' min ')]
muts=[]
for fn in sorted(os.listdir(DST+'/Verif/Model')):
    if only and fn[:-5] not in only: continue
    src=open(f'{DST}/Verif/Model/{fn}').read(); cl=strip_comments(src)
    starts=[(m.start(),m.group(2)) for m in re.finditer(r'^(partial def|def|abbrev)\s+(\S+)',cl,re.M)]
    allst=[m.start() for m in re.finditer(r'^(partial def|def|abbrev|theorem|inductive|structure|instance|mutual|end|namespace|open|example|deriving)\b',cl,re.M)]+[len(cl)]
    for st,name in starts:
        en=min(x for x in allst if x>st)
        hdr=re.search(r':=|\n\s*\|',cl[st:en]); b=st+(hdr.end() if hdr else 0)
        body=cl[b:en]; c=[]
        for pat,rep in OPS:
            for m in re.finditer(pat,body):
                o=m.group(0)
                if rep=='lit':
                    v=int(o,0); n=hex(v+1) if o.startswith('0x') else str(v+1)
                elif rep=='ne': n=m.group(1)+' ≠ '
                else: n=rep
                if n==o: continue
                c.append((b+m.start(),b+m.end(),o,n))
        # drop a match arm's list element / record field update
        for m in re.finditer(r'\{ *(\w+) with ([^{}]*)\}',body): c.append((b+m.start(),b+m.end(),m.group(0),m.group(1)))
        doc=re.findall(r'/--(.*?)-/',src[:st],re.S)
        for x in rnd.sample(c,min(K,len(c))): muts.append((fn,name,x,' '.join((doc or [''])[-1].split())[:160]))
rnd.shuffle(muts)
print(len(muts),'mutations',flush=True)
subprocess.run('lake build Verif >/dev/null 2>&1',shell=True,cwd=DST)
for n,(fn,name,(a,b,o,nw),doc) in enumerate(muts):
    if os.path.exists('/tmp/auto/stop'): break
    f=f'{DST}/Verif/Model/{fn}'; orig=open(f).read()
    open(f,'w').write(orig[:a]+nw+orig[b:])
    line=orig[:a].count('\n')+1; ctx=orig.split('\n')[line-1].strip()
    p=subprocess.Popen('exec nice timeout 900 lake build Verif 2>&1',shell=True,cwd=DST,stdout=subprocess.PIPE,text=True,preexec_fn=os.setsid)
    th=[];ex=[];other=[];t0=time.time()
    for l in p.stdout:
        m=re.match(r'error: (Verif/\S+?\.lean):(\d+):\d+:',l)
        if m:
            k=enclosing(os.path.join(DST,m.group(1)),int(m.group(2)))
            L={'theorem':th,'lemma':th,'example':ex}.get(k[0],other)
            if k[1] not in L: L.append(k[1])
            if L is th and '/Props/' in m.group(1):
                os.killpg(p.pid,signal.SIGKILL); break
            if L is other: os.killpg(p.pid,signal.SIGKILL); break
    p.wait(); time.sleep(0.3)
    open(f,'w').write(orig)
    st='caught' if th else ('examples' if ex else ('stillborn' if other else 'SURVIVED'))
    if st in('examples','SURVIVED'): print(n,st,fn,f'{name}:{line}',repr(o),'->',repr(nw),'|',ctx[:150],'|',ex[:3],int(time.time()-t0),flush=True)
    with open(OUT,'a') as L: L.write(json.dumps({"definition":name,"file":"Model/"+fn,"line":line,"edit":f"{o.strip()} -> {nw.strip()}","context":ctx[:200],"result":st,"claim":doc,"theorems_failed":th[:5],"examples_failed":ex[:3]},ensure_ascii=False)+'\n')
print('finished',flush=True)
