#!/usr/bin/env python3
"""mutb.py BATCH.py : BATCH defines M = [(file, old, new, definition, edit, claim[, tightened])...]"""
import sys,os,subprocess,re,json,glob
ns={}; exec(open(sys.argv[1]).read(),ns); M=ns["M"]
S="/tmp/mut/lean"; V="/verif/lean"
os.makedirs("/tmp/mut",exist_ok=True)
if not os.path.isdir(S): subprocess.run(["cp","-a",V,S])
def sync():
    src={os.path.relpath(p,V) for p in glob.glob(V+"/Verif/**/*.lean",recursive=True)}|{"Verif.lean"}
    for p in glob.glob(S+"/Verif/**/*.lean",recursive=True):
        if os.path.relpath(p,S) not in src: os.remove(p)
    for r in src:
        a=open(os.path.join(V,r)).read(); q=os.path.join(S,r)
        if not os.path.exists(q) or open(q).read()!=a:
            os.makedirs(os.path.dirname(q),exist_ok=True); open(q,"w").write(a)
sync()
r=subprocess.run(["lake","build"],cwd=S,capture_output=True,text=True)
if r.returncode: print("BASE BUILD FAILS"); sys.exit(1)
decl=re.compile(r"^(?:@\[[^\]]*\]\s*)?(?:private |protected |noncomputable )*(theorem|lemma|def|example|abbrev|instance|structure|inductive)\s*([\w'.«»]*)")
imps={}
for p in glob.glob(S+"/Verif/**/*.lean",recursive=True):
    m="Verif."+os.path.relpath(p,S+"/Verif")[:-5].replace("/",".")
    imps[m]=set(re.findall(r"^import (Verif\.[\w.]+)",open(p).read(),re.M))
def dep(m,bad,seen=None):
    seen=seen or set()
    for i in imps.get(m,()):
        if i in bad: return True
        if i not in seen:
            seen.add(i)
            if dep(i,bad,seen): return True
    return False
for mu in M:
    f,old,new,defn,edit,claim=mu[:6]; tight=list(mu[6]) if len(mu)>6 else []
    p=os.path.join(S,f); t=open(p).read()
    if t.count(old)!=1: print("!! OLD occurs",t.count(old),"times:",defn,edit); continue
    open(p,"w").write(t.replace(old,new))
    r=subprocess.run(["lake","build"],cwd=S,capture_output=True,text=True); out=r.stdout+r.stderr
    failed=[]; badm=set()
    modeldef=False
    for m in re.finditer(r"error: (Verif/[\w/]+\.lean):(\d+):\d+",out):
        badm.add(m.group(1)[:-5].replace("/","."))
        if "/Model/" in m.group(1): modeldef=True
        lines=open(os.path.join(S,m.group(1))).read().split("\n")
        for i in range(int(m.group(2))-1,-1,-1):
            d=decl.match(lines[i])
            if d:
                nm=d.group(2) or "example %s:%d"%(m.group(1),i+1)
                if nm not in failed: failed.append(nm)
                break
    blocked=[]
    for m in imps:
        if m.startswith("Verif.Props.") and m not in badm and dep(m,badm):
            blocked+=re.findall(r"^theorem (C\d\d_\w+)",open(os.path.join(S,m.replace(".","/")+".lean")).read(),re.M)
    open(p,"w").write(t)
    flag="" if r.returncode else "   <<<<<< SURVIVED"
    if modeldef: flag+="   <<<<<< MODEL DOES NOT COMPILE (not logged)"
    print(defn,"|",edit,"->",failed[:6],"blocked",len(blocked),flag,flush=True)
    if modeldef: continue
    with open("/verif/seeded/LOG.jsonl","a") as g:
        g.write(json.dumps({"definition":defn,"edit":edit,"claim_broken":claim,"theorems_failed":failed,"property_theorems_depending_on_failed":blocked,"survived":r.returncode==0,"theorems_tightened":tight},ensure_ascii=False)+"\n")
