#!/usr/bin/env python3
"""Build /verif/seeded/LOG.jsonl from the result files of tools/mutate.py.
usage: mklog.py RES.jsonl... ; notes and tightenings are in tools/mutnotes.txt:
   defn | old | new-or-* | tightened theorems or 'equivalent' | note"""
import sys,json,re,os,collections
V='/verif'
props={}
for l in open(V+'/properties.jsonl'):
    if l.strip():
        o=json.loads(l); props[o['id']]=o['title']
notes=[]
p=V+'/tools/mutnotes.txt'
if os.path.exists(p):
    for l in open(p):
        if l.strip() and not l.startswith('#'): notes.append([x.strip() for x in l.rstrip('\n').split(' | ')])
def note(r):
    for n in notes:
        if n[0]==r.get('defn') and n[1] in('*',r['old'].strip()) and n[2] in('*',r['new'].strip()): return n[3],n[4]
    return None
# which properties import a model file (directly or not)
imp={}
for d,_,fs in os.walk(V+'/lean/Verif'):
    for f in fs:
        t=open(d+'/'+f).read(); m='Verif.'+os.path.relpath(d+'/'+f,V+'/lean/Verif')[:-5].replace('/','.')
        imp[m]=re.findall(r'^import (Verif\.\S+)',t,re.M)
def clos(m,s=None):
    s=s if s is not None else set()
    for x in imp.get(m,[]):
        if x not in s: s.add(x); clos(x,s)
    return s
users=collections.defaultdict(set)
for m in imp:
    g=re.match(r'Verif\.Props\.(C\d+)',m)
    if g:
        for x in clos(m): users[x].add(g.group(1))
recs={}
order=[]
for f in sys.argv[1:]:
    if not os.path.exists(f): continue
    for l in open(f):
        r=json.loads(l)
        if r['status'] in('invalid','timeout'): continue
        k=(r['file'],r.get('defn'),r.get('ctx') or r['old'],r['old'],r['new'],r.get('line'),r.get('orig_idx',r['idx']))
        if k not in recs: order.append(k); recs[k]=[]
        recs[k].append(r)
out=open(V+'/seeded/LOG.jsonl','w'); st=collections.Counter()
for k in order:
    rs=recs[k]; r=rs[-1]; first=rs[0]
    thms=r.get('theorems',[])
    ids=sorted({m.group(1) for t in thms+r.get('examples',[]) for m in [re.match(r'(C\d+)_',t)] if m})
    mod=r['file'][:-5].replace('/','.')
    if not ids: ids=sorted(users[mod])[:4]
    claim=r.get('claim') or '; '.join(f'{i}: {props.get(i,"")}' for i in ids)
    o=dict(definition=r['file'].split('/')[-1][:-5]+'.'+(r.get('defn') or ''),
      edit=(f"line {r['line']}: " if 'line' in r else '')+f"`{(r.get('ctx') or '').strip()}`: replace `{r['old'].strip()}` by `{r['new'].strip()}`" if r.get('ctx') else f"replace `{r['old']}` by `{r['new']}`",
      claim=claim,theorems_failed=thms,theorems_tightened=[])
    n=note(r)
    if first['status']!='killed' or r['status']!='killed':
        if n and n[0].startswith('equivalent'): o['note']='equivalent edit: '+n[1]; o['claim']='none (behaviour unchanged): '+claim
        elif n:
            o['theorems_tightened']=n[0].split(); o['note']='survived at first; '+n[1]
        elif r['status']!='killed' : o['note']='only an example failed' if r['status']=='example_only' else ('survived' if r['status']=='survived' else r['status'])
    st[r['status']+('' if 'note' not in o else ':'+o['note'].split(';')[0][:15])]+=1
    out.write(json.dumps(o,ensure_ascii=False)+'\n')
print(len(order),st)
