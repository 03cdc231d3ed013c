#!/usr/bin/env python3
"""Seeded-bug runner.  Usage: mutate.py mutations.json  (list of {file, def, old, new, edit, claim, props})
For every mutation: copy the sources of /verif/lean to /tmp/mut, apply the edit, recompile the edited
module and everything that imports it.  Files with errors are still compiled to an .olean (failed
declarations then rest on the placeholder axiom), so that the set of theorems of the expected properties
that no longer have a proof is exact; other properties are not rebuilt.  One JSON line per mutation is appended to /verif/seeded/LOG.jsonl."""
import json, os, re, shutil, subprocess, sys, glob
from concurrent.futures import ThreadPoolExecutor, wait, FIRST_COMPLETED
SRC=os.environ.get('SRC','/verif/lean'); W='/tmp/mut'; PH='s'+'orryAx'
MK='''import Lean
open Lean Elab
unsafe def main (args : List String) : IO UInt32 := do
  match args with
  | [file, mod, out] =>
    enableInitializersExecution
    initSearchPath (← findSysroot) ((← IO.getEnv "LEAN_PATH").getD "" |>.splitOn ":" |>.map System.FilePath.mk)
    let input ← IO.FS.readFile file
    let ictx := Parser.mkInputContext input file
    let (header, ps, msgs) ← Parser.parseHeader ictx
    let (env, msgs) ← processHeader header {} msgs ictx (mainModule := mod.toName)
    let s ← IO.processCommands ictx ps (Command.mkState env msgs {})
    for m in s.commandState.messages.toList do
      if m.severity == .error then
        IO.println s!"ERR {m.pos.line}"
    writeModule s.commandState.env out
    return 0
  | _ => return 1
'''
AX='''import Verif
open Lean Elab Command
run_cmd do
  let env ← getEnv
  for (n, ci) in env.constants.map₁.toList do
    if (ci matches .thmInfo _) && ((n.toString.splitOn "Verif.C").length > 1) && !n.isInternal then
      let ax ← liftCoreM (collectAxioms n)
      if ax.contains ``%s then logInfo m!"BAD {n}"
''' % PH
def modfile(m): return m.replace('.','/')+'.lean'
def sh(cmd,env=None,timeout=1500):
    return subprocess.run(cmd,capture_output=True,text=True,env=env,timeout=timeout,cwd=W)
def graph():
    g={}
    for f in glob.glob(W+'/Verif/**/*.lean',recursive=True)+[W+'/Verif.lean']:
        m=os.path.relpath(f,W)[:-5].replace('/','.')
        g[m]=[l.split()[1] for l in open(f) if l.startswith('import Verif')]
    return g
def decl_at(lines,ln):
    for i in range(min(ln,len(lines))-1,-1,-1):
        mm=re.match(r'(?:@\[.*?\]\s*)?(?:private |protected |noncomputable )*(theorem|lemma|def|example|instance|structure|inductive)\s*([^\s:({\[]*)',lines[i])
        if mm: return mm.group(1)+' '+mm.group(2)
    return '?'
def run(mu):
    shutil.rmtree(W,ignore_errors=True); os.makedirs(W)
    subprocess.run(['cp','-r',SRC+'/Verif',SRC+'/Verif.lean',W+'/'])
    os.makedirs(W+'/o'); subprocess.run('cp -r %s/.lake/build/lib/lean/. %s/o/'%(SRC,W),shell=True)
    open(W+'/Mk.lean','w').write(MK); open(W+'/Ax.lean','w').write(AX)
    lp=subprocess.run(['lake','env','printenv','LEAN_PATH'],capture_output=True,text=True,cwd=SRC).stdout.strip()
    env=dict(os.environ,LEAN_PATH=W+'/o:'+':'.join(lp.split(':')[1:]))
    f=W+'/Verif/'+mu['file']; t=open(f).read()
    if t.count(mu['old'])!=mu.get('count',1): return {'bad':'old text occurs %d times'%t.count(mu['old'])}
    open(f,'w').write(t.replace(mu['old'],mu['new']))
    start='Verif.'+mu['file'][:-5].replace('/','.')
    g=graph(); rev={}
    for m,ds in g.items():
        for d in ds: rev.setdefault(d,[]).append(m)
    need=set(); st=[start]
    while st:
        m=st.pop()
        if m in need: continue
        need.add(m); st+=rev.get(m,[])
    # only what the expected properties depend on is rebuilt
    heads=[m for m in g if re.search(r'^theorem (%s)_'%'|'.join(mu['props']),open(W+'/'+modfile(m)).read(),re.M)]
    clo=set(); st=heads+[start]
    while st:
        m=st.pop()
        if m in clo: continue
        clo.add(m); st+=g[m]
    need&=clo
    open(W+'/Ax.lean','w').write(AX.replace('import Verif\n','import Lean\n'+''.join('import %s\n'%m for m in heads)))
    errs={}; done=set(m for m in g if m not in need); running={}
    def build(m):
        out=W+'/o/'+m.replace('.','/')+'.olean'
        r=sh(['lean','--run',W+'/Mk.lean',modfile(m),m,out],env)
        lines=open(W+'/'+modfile(m)).read().split('\n')
        e=sorted(set(decl_at(lines,int(x.split()[1])) for x in r.stdout.split('\n') if x.startswith('ERR')))
        if r.returncode!=0: e.append('CRASH '+r.stderr[-200:])
        return e
    with ThreadPoolExecutor(int(os.environ.get('J','3'))) as ex:
        todo=set(need)
        while todo or running:
            for m in sorted(todo):
                if all(d in done for d in g[m]) and len(running)<int(os.environ.get('J','3')):
                    running[ex.submit(build,m)]=m; todo.discard(m)
            ds,_=wait(running,return_when=FIRST_COMPLETED)
            for d in ds:
                m=running.pop(d); e=d.result(); done.add(m)
                if e: errs[m]=e
                if m==start and e: return {'bad':'mutant does not compile: %s'%e}
    r=sh(['lean',W+'/Ax.lean'],env)
    bad=sorted(x.split('BAD ')[1].replace('Verif.','').strip() for x in r.stdout.split('\n') if 'BAD ' in x)
    return {'errs':errs,'bad_theorems':bad}
if __name__=='__main__':
    out='/verif/seeded/LOG.jsonl'
    seen=set((json.loads(l)['definition'],json.loads(l)['edit']) for l in open(out))
    for mu in json.load(open(sys.argv[1])):
        if (mu['def'],mu['edit']) in seen: continue
        try: r=run(mu)
        except Exception as e: r={'bad':repr(e)}
        if 'bad' in r: print('BAD',mu['def'],mu['edit'],r['bad'],flush=True); continue
        props=sorted(set(b[:3] for b in r['bad_theorems']))
        surv=[p for p in mu['props'] if p not in props]
        rec={'definition':mu['def'],'file':'lean/Verif/'+mu['file'],'edit':mu['edit'],'claim_broken':mu['claim'],
             'properties_expected':mu['props'],'theorems_failed':r['bad_theorems'],
             'lemmas_failed':sorted(x for m,e in r['errs'].items() for x in e if not re.match(r'theorem C\d\d_',x)),
             'survived':surv,'theorems_tightened':[]}
        open(out,'a').write(json.dumps(rec)+'\n')
        print('SURVIVED' if surv else 'caught',mu['def'],'|',mu['edit'],'| expected',mu['props'],'surv',surv,'| nfail',len(r['bad_theorems']),flush=True)
