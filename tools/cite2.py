import re,glob,sys
B='/verif/lean/Verif/Model/'
CIT=re.compile(r'`?((?:grf/)?[A-Za-z_/0-9]+\.py(?::[0-9]+(?:[-,][0-9]+)*)?)')
DEF=re.compile(r'(?m)^((?:@\[[^\]]*\]\s*)?(?:noncomputable |private |partial )?(def|structure|inductive|abbrev)\s+([^\s:({\[]+))')
rep=[]
allfiles={f:open(f).read() for f in sorted(glob.glob(B+'*.lean'))}
def parse(s):
    out=[]
    ms=list(DEF.finditer(s))
    for i,m in enumerate(ms):
        pre=s[:m.start()].rstrip()
        ds=None
        if pre.endswith('-/'):
            j=pre.rfind('/--')
            k=pre.rfind('/-!')
            if j>k: ds=(j,len(pre))
        end=ms[i+1].start() if i+1<len(ms) else len(s)
        out.append((m.group(3),m.start(),end,ds))
    return out
info={f:parse(s) for f,s in allfiles.items()}
def cite(s,ds):
    if ds is None: return None
    m=CIT.search(s[ds[0]:ds[1]])
    return m.group(1) if m else None
def first_user(f,idx,seen=None):
    """the citation of the first cited def that uses this one (transitively)"""
    if seen is None: seen=set()
    name=info[f][idx][0].split('.')[-1]
    pat=re.compile(r'(?<![A-Za-z0-9_])'+re.escape(name)+r'(?![A-Za-z0-9_?\'])')
    seen.add((f,idx))
    users=[]
    order=[f]+[g for g in allfiles if g!=f]
    for g in order:
        s=allfiles[g]
        for k,(n,a,b,ds) in enumerate(info[g]):
            if (g,k)==(f,idx) or (g==f and k<idx): continue
            if g!=f and not ('import Verif.Model.'+f.split('/')[-1][:-5]) in s: continue
            if pat.search(s[a:b]):
                c=cite(s,ds)
                if c and ':' in c: return c
                users.append((g,k))
    for u in users:
        if u not in seen:
            c=first_user(u[0],u[1],seen)
            if c: return c
    return None
tot=0;miss=[]
new={}
for f,s in allfiles.items():
    edits=[]
    for idx,(n,a,b,ds) in enumerate(info[f]):
        doc=s[ds[0]:ds[1]] if ds else ''
        if re.search(r'\.py|`\d+',doc): continue
        c=first_user(f,idx)
        if c is None:
            # nearest cited earlier def
            for k in range(idx-1,-1,-1):
                c0=cite(s,info[f][k][3])
                if c0 and ':' in c0: c=c0;break
        if c is None:
            m=CIT.search(s); c=m.group(1) if m else None
        if c is None: miss.append((f,n)); continue
        if not c.startswith('grf/'): c='grf/'+c
        tot+=1
        rep.append((f.split('/')[-1],n,c))
        if ds:
            body=doc[:-2].rstrip()
            edits.append((ds[0],ds[1],body+f' For `{c}`. -/'))
        else:
            edits.append((a,a,f'/-- For `{c}`. -/\n'))
    for x,y,t in sorted(edits,reverse=True): s=s[:x]+t+s[y:]
    new[f]=s
print(tot,miss)
import os
for f,n,c in rep:
    p,l=(c.split(':')+[''])[:2]
    if not os.path.exists('/repo/'+p): print('NOFILE',f,n,c)
for r in rep: print(*r)
if len(sys.argv)>1:
    for f,s in new.items(): open(f,'w').write(s)
