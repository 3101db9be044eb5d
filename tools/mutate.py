# Mutation tests of the theorems.  Usage: python3 tools/mutate.py [id ...]
# Copies lean/ to a scratch directory, applies one edit of seeded/mutations.py at a
# time, rebuilds the target module and appends a line to seeded/LOG.jsonl.
# Without arguments only the mutations that are not in the log yet are run.
import json, os, re, shutil, subprocess, sys
here = os.path.dirname(os.path.abspath(__file__))
root = os.path.join(here, "..")
SCR = "/root/scratch/lean"
M = []
def m(id, definition, file, old, new, breaks, target, tightened=()):
    M.append(dict(id=id, definition=definition, file=file, old=old, new=new, breaks=breaks,
                  target=target, tightened=list(tightened)))
exec(open(os.path.join(root, "seeded", "mutations.py")).read())

def enclosing(path, line):
    name = "?"
    for i, l in enumerate(open(path), 1):
        if i > line: break
        g = re.match(r"\s*(?:@\[[^\]]*\]\s*)?(?:private |protected |noncomputable )*(theorem|lemma|def|instance|example|inductive|structure)\b\s*([^\s:({\[]*)", l)
        if g: name = g.group(2) or g.group(1)
    return name

def run(x):
    shutil.rmtree(os.path.join(SCR, "Verif"), ignore_errors=True)
    subprocess.run(["cp", "-a", os.path.join(root, "lean") + "/.", SCR], check=True)
    p = os.path.join(SCR, x["file"])
    t = open(p).read()
    if t.count(x["old"]) != 1:
        print("BAD EDIT", x["id"], t.count(x["old"])); return None
    open(p, "w").write(t.replace(x["old"], x["new"]))
    r = subprocess.run(["lake", "build"] + x["target"].split(), cwd=SCR, capture_output=True, text=True, timeout=1500)
    out = r.stdout + r.stderr
    failed = []
    for g in re.finditer(r"error: (\S+\.lean):(\d+):", out):
        n = g.group(1).replace("Verif/", "").replace(".lean", "") + ":" + enclosing(os.path.join(SCR, g.group(1)), int(g.group(2)))
        if n not in failed: failed.append(n)
    if r.returncode != 0 and not failed: failed = [out[-300:]]
    return failed

logp = os.path.join(root, "seeded", "LOG.jsonl")
done = set()
if os.path.exists(logp):
    for l in open(logp):
        done.add(json.loads(l)["id"])
want = sys.argv[1:]
os.makedirs(SCR, exist_ok=True)
for x in M:
    if want and x["id"] not in want: continue
    if not want and x["id"] in done: continue
    f = run(x)
    if f is None: continue
    verdict = "caught" if f else "SURVIVED"
    print(x["id"], verdict, f, flush=True)
    with open(logp, "a") as h:
        h.write(json.dumps(dict(id=x["id"], definition=x["definition"], edit=x["old"].strip() + "  ->  " + x["new"].strip(),
            breaks=x["breaks"], failed=f, verdict=verdict, tightened=x["tightened"])) + "\n")
