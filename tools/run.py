#!/usr/bin/env python3
"""usage: run.py muts.py out.jsonl [start]; muts.py defines M = [(file, definition, old, new, claim)]"""
import subprocess, sys, json, re, os, shutil, importlib.util, time
base="/tmp/mut/lean"
src="/verif/lean"
def sync():
    shutil.rmtree("/tmp/mut/snap",ignore_errors=True); shutil.copytree(src+"/Verif","/tmp/mut/snap/Verif")
    shutil.rmtree(base+"/Verif"); shutil.copytree(src+"/Verif",base+"/Verif"); shutil.copy(src+"/Verif.lean",base+"/Verif.lean")
if not os.path.exists(base):
    subprocess.run(["cp","-a",src,base],check=True)
sync()
spec=importlib.util.spec_from_file_location("m",sys.argv[1]); m=importlib.util.module_from_spec(spec); spec.loader.exec_module(m)
out=sys.argv[2]
start=int(sys.argv[3]) if len(sys.argv)>3 else 0
import signal,threading
def build(abort=True):
    """the build; it is stopped 25 s after the first error"""
    p=subprocess.Popen("lake build 2>&1",shell=True,cwd=base,stdout=subprocess.PIPE,text=True,start_new_session=True)
    out=[];timer=None
    for l in p.stdout:
        out.append(l)
        if abort and timer is None and re.match(r"^error: Verif/",l):
            timer=threading.Timer(25,lambda: os.killpg(p.pid,signal.SIGTERM)); timer.start()
    rc=p.wait()
    if timer: timer.cancel()
    return rc,"".join(out)
rc,o=build()
assert rc==0,o[-2000:]
def enclosing(f,line):
    ls=open(base+"/"+f).read().split("\n")
    for i in range(min(line,len(ls))-1,-1,-1):
        mm=re.match(r"(?:private )?(theorem|def|example|instance|lemma|abbrev)\s*([\w'.]*)",ls[i])
        if mm: return (mm.group(2) or "example@%d"%(i+1))
    return "?"
def thms_of(f):
    return re.findall(r"^theorem (C\d\d+_\w+)",open(base+"/"+f).read(),re.M)
for i,(f,d,old,new,claim) in enumerate(m.M):
    if i<start: continue
    path=base+"/Verif/"+f
    s=open("/tmp/mut/snap/Verif/"+f).read()
    n=s.count(old)
    if n!=1:
        print(i,"PATTERN COUNT",n,d,repr(old)); continue
    open(path,"w").write(s.replace(old,new))
    t=time.time()
    rc,o=build()
    fails=[];mods=set();modelerr=False
    for mm in re.finditer(r"^error: (Verif/[\w/]+\.lean):(\d+):\d+",o,re.M):
        ff,ln=mm.group(1),int(mm.group(2))
        if ff.startswith("Verif/Model"): modelerr=True
        e=ff.split("/")[-1][:-5]+":"+enclosing(ff,ln)
        if e not in fails: fails.append(e)
    for mm in re.finditer(r"^- (Verif[\w.]*)",o,re.M): mods.add(mm.group(1))
    r={"i":i,"file":f,"definition":d,"edit":old+"  =>  "+new,"claim":claim,"failed":fails,"model_error":modelerr,"rc":rc,"sec":round(time.time()-t)}
    print(i,d,"SURVIVED" if rc==0 else ("MODELERR" if modelerr else "killed"),fails[:4],r["sec"],flush=True)
    open(out,"a").write(json.dumps(r,ensure_ascii=False)+"\n")
    open(path,"w").write(s)
build()
