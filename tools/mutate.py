#!/usr/bin/env python3
"""Mutation sweep over the model.  Works in a scratch copy outside /verif.
usage: mutate.py WORKDIR gen OUT.jsonl [cap]         enumerate mutants (cap per definition)
       mutate.py WORKDIR run IN.jsonl RES.jsonl [i n] run every n-th mutant starting at i
       mutate.py WORKDIR manual IN.jsonl RES.jsonl    run hand written mutants {file,old,new,...}
WORKDIR holds a copy of /verif/lean with a finished build; WORKDIR.pristine is its .lake/build."""
import sys,re,os,json,subprocess,shutil,random
W=sys.argv[1]
def code_mask(t):
    m=[True]*len(t); i=0
    while i<len(t):
        if t.startswith('/-',i):
            d=1; j=i+2
            while d and j<len(t):
                if t.startswith('/-',j): d+=1; j+=2
                elif t.startswith('-/',j): d-=1; j+=2
                else: j+=1
            for k in range(i,j): m[k]=False
            i=j
        elif t.startswith('--',i):
            j=t.find('\n',i); j=len(t) if j<0 else j
            for k in range(i,j): m[k]=False
            i=j
        else: i+=1
    return m
HEAD=re.compile(r'^(?:@\[[^\]]*\]\s*)?(?:private |protected |noncomputable |partial )*(def|theorem|lemma|example|instance|structure|inductive|abbrev|class|variable|namespace|end|open|section|import)\b *(\S*)',re.M)
def decls(t,mask):
    ms=[m for m in HEAD.finditer(t) if mask[m.start()]]
    return [(m.group(1),m.group(2),m.start(),ms[i+1].start() if i+1<len(ms) else len(t)) for i,m in enumerate(ms)]
RULES=[(r' < ',' ≤ '),(r' ≤ ',' < '),(r' > ',' ≥ '),(r' ≥ ',' > '),(r'\bmin\b','max'),(r'\bmax\b','min'),
 (r' && ',' || '),(r' \|\| ',' && '),(r' ∧ ',' ∨ '),(r' ∨ ',' ∧ '),
 (r' \+ 1\b',''),(r' - 1\b',''),(r' \+ ',' - '),(r' - ',' + '),(r' \* ',' + '),(r' / ',' * '),
 (r' = ',' ≠ '),(r' ≠ ',' = '),(r' == ',' != '),(r' != ',' == '),
 (r'\btrue\b','false'),(r'\bfalse\b','true'),(r'\.1\b','.2'),(r'\.2\b','.1'),
 (r'(?<![\w.])(\d+)(?![\w.])','INC'),(r'(?<![\w.])([1-9]\d*)(?![\w.])','DEC'),
 (r'¬ ?',''),(r'(?<=[ (])!(?=[\w(])',''),(r'\bnone\b','SOMEFIX'),
 (r'\.x\b','.y'),(r'\.y\b','.x'),(r'\bnx\b','ny'),(r'\bny\b','nx'),(r'\.head\?','.getLast?'),
 (r'\.append\b','PREP'),(r'\.reverse\b',''),(r'\btake\b','drop'),(r'\bdrop\b','take'),(r'\ball\b','any'),(r'\bany\b','all')]
def gen(out,cap):
    random.seed(7); L=[]
    d=W+'/Verif/Model'
    for f in sorted(os.listdir(d)):
        t=open(d+'/'+f).read(); mask=code_mask(t)
        for k,n,a,b in decls(t,mask):
            if k not in('def','abbrev'): continue
            body=t.find(':=',a,b)
            bar=t.find('\n  |',a,b)
            st=min([x for x in(body,bar) if x>=0] or [a])
            C=[]
            for pat,rep in RULES:
                for m in re.finditer(pat,t[st:b]):
                    p=st+m.start(); q=st+m.end()
                    if not mask[p]: continue
                    s=t[p:q]
                    if rep=='INC': r=str(int(s)+1)
                    elif rep=='DEC': r=str(int(s)-1)
                    elif rep in('SOMEFIX','PREP'): continue
                    else: r=rep
                    if s.strip()=='=' and t[p-1:p]==':' : continue
                    C.append((p,q,r))
            # identifier swaps: two different short args in an application line
            random.shuffle(C)
            for p,q,r in C[:cap]:
                L.append(dict(file='Verif/Model/'+f,defn=n,pos=p,end=q,old=t[p:q],new=r,line=t.count('\n',0,p)+1,ctx=t[t.rfind('\n',0,p)+1:t.find('\n',q)]))
    with open(out,'w') as o:
        for x in L: o.write(json.dumps(x,ensure_ascii=False)+'\n')
    print(len(L))
def restore():
    shutil.rmtree(W+'/.lake/build'); shutil.copytree(W+'.pristine',W+'/.lake/build',copy_function=shutil.copy2)
def test(file,newtext):
    p=W+'/'+file; orig=open(p).read()
    open(p,'w').write(newtext)
    env=dict(os.environ,LEAN_NUM_THREADS='2')
    try:
        mod=file[:-5].replace('/','.')
        r=subprocess.run(['lake','build',mod],cwd=W,env=env,capture_output=True,text=True,timeout=1800)
        if r.returncode: 
            return dict(status='invalid',err=r.stdout[-300:])
        r=subprocess.run(['lake','build'],cwd=W,env=env,capture_output=True,text=True,timeout=3600)
        if r.returncode==0: return dict(status='survived')
        thm=[];ex=[]
        for f,l in re.findall(r'^error: (Verif/\S+\.lean):(\d+):\d+:',r.stdout+'\n'+r.stderr,re.M):
            t=open(W+'/'+f).read(); mask=code_mask(t); pos=sum(len(x)+1 for x in t.split('\n')[:int(l)-1])
            # use end of the line so that a head on this line counts
            e=t.find('\n',pos); e=len(t) if e<0 else e
            for k,n,a,b in decls(t,mask):
                if a<=e<=b and a<=e:
                    if a<=e<b or b==len(t):
                        nm=os.path.basename(f)[:-5]+'.'+(n.rstrip(':') or k)
                        (ex if k=='example' else thm).append(nm)
        bad=re.findall(r'^✖ \[.*?\] Building (\S+)',r.stdout,re.M)
        thm=list(dict.fromkeys(thm)); ex=list(dict.fromkeys(ex))
        return dict(status='killed' if thm else ('example_only' if ex else 'other'),theorems=thm,examples=ex,modules=bad)
    except subprocess.TimeoutExpired:
        return dict(status='timeout')
    finally:
        open(p,'w').write(orig); restore()
if sys.argv[2]=='gen': gen(sys.argv[3],int(sys.argv[4]) if len(sys.argv)>4 else 3)
else:
    L=[json.loads(x) for x in open(sys.argv[3]) if x.strip()]
    i,n=(int(sys.argv[5]),int(sys.argv[6])) if len(sys.argv)>6 else (0,1)
    done=set()
    if os.path.exists(sys.argv[4]):
        for x in open(sys.argv[4]): done.add(json.loads(x)['idx'])
    for k,x in enumerate(L):
        if k%n!=i or k in done: continue
        t=open(W+'/'+x['file']).read()
        if 'pos' in x: nt=t[:x['pos']]+x['new']+t[x['end']:]
        else:
            if t.count(x['old'])!=1: 
                print('BAD',k,t.count(x['old']),x['old'],flush=True); continue
            nt=t.replace(x['old'],x['new'])
        r=test(x['file'],nt); r['idx']=k; r.update({a:b for a,b in x.items() if a not in('pos','end')})
        with open(sys.argv[4],'a') as o: o.write(json.dumps(r,ensure_ascii=False)+'\n')
        print(k,r['status'],x['file'],x.get('defn'),repr(x['old']),'->',repr(x['new']),r.get('theorems'),r.get('examples'),flush=True)
