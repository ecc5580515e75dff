import json,subprocess,re,sys,os,importlib.util
R="/tmp/mut/lean"
def decl_at(path,line):
    ls=open(path).read().split("\n")
    for i in range(min(line,len(ls))-1,-1,-1):
        m=re.match(r"(?:private |protected |@\[[^\]]*\] ?)*(theorem|lemma|def|example|instance|structure|inductive)\s*([^\s(:{\[]*)",ls[i])
        if m: 
            return (m.group(2) or "example@%d"%(i+1)) if m.group(1)!="example" else "example@%d"%(i+1)
    return "?"
def run(m):
    f=os.path.join(R,"Verif/Model",m["file"]+".lean")
    src=open(f).read()
    if src.count(m["old"])<1: return dict(status="nomatch")
    if src.count(m["old"])>1 and not m.get("n"): return dict(status="ambiguous %d"%src.count(m["old"]))
    if m.get("n"):
        parts=src.split(m["old"]); n=m["n"]
        new=m["old"].join(parts[:n])+m["new"]+m["old"].join(parts[n:])
    else: new=src.replace(m["old"],m["new"])
    open(f,"w").write(new)
    try:
        p=subprocess.run(["timeout","1500","lake","build"],cwd=R,capture_output=True,text=True)
        out=p.stdout+p.stderr
    finally:
        open(f,"w").write(src)
    failed=[]
    for mm in re.finditer(r"error: (Verif/[\w/]+\.lean):(\d+):\d+",out):
        d=decl_at(os.path.join(R,mm.group(1)) ,int(mm.group(2)))
        if mm.group(1).startswith("Verif/Model"): d="MODEL:"+d
        t=mm.group(1).split("/")[-1][:-5]+"."+d
        if t not in failed: failed.append(t)
    if p.returncode==124: return dict(status="timeout",failed=failed)
    return dict(status="survived" if p.returncode==0 else "killed",failed=failed)
batch=json.load(open(sys.argv[1]))
res=sys.argv[2]
done=set()
if os.path.exists(res):
    done={json.loads(l)["id"] for l in open(res)}
for i,m in enumerate(batch):
    k=m.get("id") or "%s:%s=>%s"%(m["file"],m["old"],m["new"])
    if k in done: continue
    r=run(m)
    with open(res,"a") as o: o.write(json.dumps(dict(id=k,**{x:m[x] for x in m if x!="id"},**r))+"\n")
    print(i,m["def"],r["status"],r.get("failed",[])[:6],flush=True)
