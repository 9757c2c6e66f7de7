#!/usr/bin/env python3
"""mut2.py batch.json results.jsonl [workers]: run mutants of the model, elaborating past errors.
For each mutant every module between the mutated file and the modules that hold the claim's theorems is
elaborated (an olean is written even when a proof fails, the failed theorem then rests on sorryAx), and
each theorem the MANIFEST lists for the claim is checked for sorryAx."""
import json, os, re, shutil, subprocess, sys, time
from concurrent.futures import ThreadPoolExecutor, wait, FIRST_COMPLETED
SRC="/verif/lean"; W="/tmp/mut2/w"; HERE="/tmp/mut2"
workers=int(sys.argv[3]) if len(sys.argv)>3 else 3
LP=subprocess.run(["lake","env","printenv","LEAN_PATH"],cwd=SRC,capture_output=True,text=True).stdout.strip()
def sync():
    shutil.rmtree(W,ignore_errors=True); os.makedirs(W)
    shutil.copytree(SRC+"/Verif",W+"/Verif"); shutil.copytree(SRC+"/.lake/build/lib/lean",W+"/lib")
mods={}
def scan():
    for root,_,fs in os.walk(W+"/Verif"):
        for f in fs:
            if f.endswith(".lean"):
                p=os.path.join(root,f); name=os.path.relpath(p,W)[:-5].replace("/",".")
                imps=[m for m in re.findall(r"^import (\S+)",open(p).read(),re.M) if m.startswith("Verif")]
                mods[name]=(p,imps)
def closure(start,edges):
    seen=set(); st=list(start)
    while st:
        x=st.pop()
        if x in seen: continue
        seen.add(x); st+=edges.get(x,[])
    return seen
def theorem_modules(names):
    r={}
    for m,(p,_) in mods.items():
        t=open(p).read()
        for n in names:
            short=n[3:] if n.startswith("RE.") else n
            if re.search(r"(theorem|lemma|def) "+re.escape(short)+r"(\s|$|\{|\()",t,re.M): r[n]=m
    return r
def olean(m): return W+"/lib/"+m.replace(".","/")+".olean"
ENV=dict(os.environ,LEAN_PATH=W+"/lib:"+":".join(LP.split(":")[1:]))
def decl_at(path,line):
    name="?"
    for i,l in enumerate(open(path),1):
        if i>line: break
        m=re.match(r"\s*(?:@\[[^\]]*\]\s*)?(?:private |noncomputable )?(theorem|def|instance|inductive|structure|example)\s*(\S+)?",l)
        if m: name=(m.group(2) or "example") if m.group(1)!="example" else "example"
    return name
def elab(m):
    p=mods[m][0]
    tmp=olean(m)+".new"
    try:
        r=subprocess.run(["nice","-n","10","lean","--run",HERE+"/driver.lean",m,p,tmp],env=ENV,capture_output=True,text=True,timeout=1500)
    except subprocess.TimeoutExpired:
        return m,["TIMEOUT"],"" 
    if not os.path.exists(tmp): return m,["CRASH"],r.stdout[-300:]+r.stderr[-300:]
    os.replace(tmp,olean(m))
    errs=[]
    for l in re.findall(r"^ERR (\d+)",r.stdout,re.M):
        d=("M:" if m.startswith("Verif.Model") else "")+m.split(".")[-1]+"."+decl_at(p,int(l))
        if d not in errs: errs.append(d)
    return m,errs,r.stdout[:400]
def run(todo):
    done=set(); errs=[]; msgs=[]
    pend=set(todo); futs={}
    with ThreadPoolExecutor(workers) as ex:
        while pend or futs:
            for m in sorted(pend):
                if all((i not in todo) or (i in done) for i in mods[m][1]) and len(futs)<workers:
                    pend.discard(m); futs[ex.submit(elab,m)]=m
            d,_=wait(futs,return_when=FIRST_COMPLETED)
            for f in d:
                m,e,msg=f.result(); del futs[f]; done.add(m)
                errs+=e; 
                if e: msgs.append(msg)
                if m.startswith("Verif.Model") and e: return errs,msgs   # the mutant does not compile
    return errs,msgs
def main():
    batch=json.load(open(sys.argv[1])); man={c["property"]:c for c in json.load(open("/verif/MANIFEST.json"))["claims"]}
    sync(); scan()
    rdeps={}
    for m,(p,i) in mods.items():
        for x in i: rdeps.setdefault(x,[]).append(m)
    deps={m:i for m,(p,i) in mods.items()}
    base=W+"/lib"; shutil.rmtree(HERE+"/base",ignore_errors=True); shutil.copytree(base,HERE+"/base")
    for b in batch:
        t0=time.time()
        mod="Verif."+b["file"][:-5].replace("/",".")
        p=mods[mod][0]; orig=open(p).read()
        if orig.count(b["old"])!=1:
            print("SKIP (matches %d)"%orig.count(b["old"]),b["definition"],b["edit"],flush=True); continue
        claims=[b["claim"]] if isinstance(b["claim"],str) else b["claim"]
        names=[n for c in claims for n in man[c]["theorems"]]
        tm=theorem_modules(names)
        full=closure(tm.values(),deps)&closure([mod],rdeps); full.add(mod)
        open(p,"w").write(orig.replace(b["old"],b["new"]))
        errs=[];msgs=[];broken=[];fine=[];done=set();uncompiled=False
        targets=sorted(set(tm.values()),key=lambda t:len(closure([t],deps)&full))
        for tmod in targets:
            need=(closure([tmod],deps)&full)|{mod}
            e,ms=run(need-done); done|=need; errs+=e; msgs+=ms
            uncompiled=any(x.startswith("M:") for x in e)
            if uncompiled: break
            ns=[n for n in tm if tm[n]==tmod]
            r=subprocess.run(["lean","--run",HERE+"/axcheck.lean",tmod]+ns,env=ENV,capture_output=True,text=True)
            broken+=re.findall(r"BROKEN (\S+)",r.stdout); fine+=re.findall(r"FINE (\S+)",r.stdout)
            if r.returncode: print("axcheck failed",r.stderr[-300:])
            if broken: break
        need=done
        open(p,"w").write(orig)
        for m in need: shutil.copy(HERE+"/base/"+m.replace(".","/")+".olean",olean(m))
        st="UNCOMPILED" if uncompiled else ("killed" if broken else "SURVIVED")
        rec={"definition":b["definition"],"edit":b["edit"],"claim":b["claim"],"result":st,"errors":errs,"broken":broken,"fine":fine}
        open(sys.argv[2],"a").write(json.dumps(rec)+"\n")
        print(st,b["definition"]+":",b["edit"],b["claim"],"| broken",broken,"| fine",fine,"| direct",errs[:12],"%ds"%(time.time()-t0),flush=True)
        if uncompiled: print("   ",msgs[:1])
main()
