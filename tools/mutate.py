"""Mutation tests: apply one edit to the model in a scratch copy, rebuild, record which theorems fail.

usage: mutate.py batch.json   -- list of {"file","old","new","definition","claim"}; appends to seeded/LOG.jsonl
"""
import json, os, re, shutil, signal, subprocess, sys, threading
SCR = "/tmp/w/mut"
def sync():
    os.makedirs(SCR, exist_ok=True)
    subprocess.run(["rsync", "-a", "--delete", "/verif/lean/", SCR + "/"], check=True) if shutil.which("rsync") else (
        shutil.rmtree(SCR, ignore_errors=True), shutil.copytree("/verif/lean", SCR, symlinks=True))
def names(path):
    out = []
    ns = []
    for i, l in enumerate(open(path), 1):
        m = re.match(r"namespace\s+(\S+)", l)
        if m: ns.append(m[1])
        m = re.match(r"end\s+(\S+)", l)
        if m and ns: ns.pop()
        m = re.match(r"(?:@\[[^\]]*\]\s*)?(?:private |protected )?(theorem|lemma|example|def|instance|abbrev)\b\s*(\S*)", l)
        if m: out.append((i, (m[2] if m[1] != "example" else "example@%d" % i), m[1]))
    return out
def run(m):
    f = os.path.join(SCR, "Verif", m["file"])
    src = open(f).read()
    assert src.count(m["old"]) == 1, (m["file"], m["old"], src.count(m["old"]))
    open(f, "w").write(src.replace(m["old"], m["new"]))
    try:
        # stop a while after the first error: the rest of the build cannot change the verdict
        p = subprocess.Popen(["lake", "build"], cwd=SCR, stdout=subprocess.PIPE, stderr=subprocess.STDOUT, text=True, start_new_session=True)
        lines, stop = [], None
        for l in p.stdout:
            lines.append(l)
            if stop is None and l.startswith("error: Verif/"):
                stop = threading.Timer(15, lambda: os.killpg(p.pid, signal.SIGKILL))
                stop.start()
        p.wait()
        if stop: stop.cancel()
        out = "".join(lines)
        failed = []
        for mm in re.finditer(r"error: (Verif/\S+\.lean):(\d+):", out):
            path, line = mm[1], int(mm[2])
            nm = None
            for i, n, k in names(os.path.join(SCR, path)):
                if i <= line: nm = n
            # also count a docstring/attribute-less header
            if nm and nm not in failed: failed.append(nm)
        return p.returncode, failed
    finally:
        open(f, "w").write(src)
def main():
    batch = json.load(open(sys.argv[1]))
    sync()
    for m in batch:
        try:
            rc, failed = run(m)
        except AssertionError as e:
            print("BAD", e); continue
        print("SURVIVED" if rc == 0 else "killed", m["definition"], "|", m["new"][:70].replace("\n", " "), "->", failed[:6])
        rec = {"definition": m["definition"], "edit": "%s: `%s` -> `%s`" % (m["file"], m["old"].strip(), m["new"].strip()),
               "claim_broken": m["claim"], "theorems_failed": failed, "theorems_tightened": m.get("tightened", [])}
        if rc == 0: rec["note"] = m.get("note", "survived")
        os.makedirs("/verif/seeded", exist_ok=True)
        open("/verif/seeded/LOG.jsonl", "a").write(json.dumps(rec, ensure_ascii=False) + "\n")
main()
