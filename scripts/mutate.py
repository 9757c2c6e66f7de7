#!/usr/bin/env python3
"""Run mutants of the model in a scratch copy.  usage: mutate.py batch.json results.jsonl
batch: list of {file, definition, old, new, edit, claim}."""
import json, os, re, shutil, subprocess, sys
SRC = "/verif/lean"
DST = "/tmp/mut/lean"

def sync():
    os.makedirs(DST, exist_ok=True)
    subprocess.run(["rsync", "-a", "--delete", SRC + "/", DST + "/"], check=False) if shutil.which("rsync") else (
        shutil.rmtree(DST, ignore_errors=True), shutil.copytree(SRC, DST, symlinks=True))

def decl_at(path, line):
    name = "?"
    with open(path) as f:
        for i, l in enumerate(f, 1):
            if i > line: break
            m = re.match(r"\s*(?:@\[[^\]]*\]\s*)?(?:private |noncomputable )?(theorem|def|instance|inductive|structure)\s+(\S+)", l)
            if m: name = m.group(2)
    return name

def main():
    batch = json.load(open(sys.argv[1]))
    sync()
    for m in batch:
        p = os.path.join(DST, "Verif", m["file"])
        orig = open(p).read()
        if orig.count(m["old"]) != 1:
            print("SKIP (matches %d)" % orig.count(m["old"]), m["definition"], m["edit"], flush=True)
            continue
        open(p, "w").write(orig.replace(m["old"], m["new"]))
        r = subprocess.run(["nice", "-n", "10", "lake", "build"], cwd=DST, capture_output=True, text=True, timeout=3000)
        out = r.stdout + r.stderr
        failed = []
        for f, l in re.findall(r"error: (Verif/\S+?\.lean):(\d+):\d+", out):
            d = decl_at(os.path.join(DST, f), int(l))
            x = os.path.basename(f)[:-5] + "." + d
            if x not in failed: failed.append(x)
        open(p, "w").write(orig)
        rec = {"definition": m["definition"], "edit": m["edit"], "claim": m["claim"], "failed": failed, "ok": r.returncode == 0}
        with open(sys.argv[2], "a") as f: f.write(json.dumps(rec) + "\n")
        print(("SURVIVED " if r.returncode == 0 else "killed ") + m["definition"] + ": " + m["edit"] + " -> " + ", ".join(failed)[:300], flush=True)

main()
