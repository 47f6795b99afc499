#!/usr/bin/env python3
"""Apply a seeded bug to a scratch copy of the Lean project and record which theorems stop compiling.

usage: mutate.py FILE.json ; the JSON is a list of {"file","old","new","definition","edit","claim","target"}.
One line per attempt is appended to seeded/LOG.jsonl.
"""
import json, re, subprocess, sys, pathlib, shutil
root = pathlib.Path(__file__).resolve().parent.parent
scratch = pathlib.Path("/tmp/scratch/lean")
scratch.parent.mkdir(parents=True, exist_ok=True)
def sync():
    subprocess.run(["rsync", "-a", "--delete", str(root / "lean") + "/", str(scratch) + "/"], check=True) if shutil.which("rsync") else \
        subprocess.run(f"rm -rf {scratch} && cp -a {root}/lean {scratch}", shell=True, check=True)
def enclosing(path, line):
    name = "?"
    for k, l in enumerate(pathlib.Path(path).read_text().splitlines(), 1):
        if k > line: break
        m = re.match(r"(?:@\[.*?\] *)?(?:private |protected )?(theorem|def|structure|instance|lemma) (\S+)", l)
        if m: name = m.group(2)
        elif re.match(r"example\b", l): name = "example"
    return name
def deps():
    d = {}
    for p in (scratch / "Verif").rglob("*.lean"):
        m = ".".join(p.relative_to(scratch).with_suffix("").parts)
        d[m] = re.findall(r"^import (Verif\.\S+)", p.read_text(), re.M)
    return d
def run(m):
    f = scratch / m["file"]
    s = f.read_text()
    assert s.count(m["old"]) >= 1, ("not found", m["old"])
    f.write_text(s.replace(m["old"], m["new"], 1))
    target = m.get("target", "Verif")
    out = subprocess.run(["lake", "build"] + target.split(), cwd=scratch, capture_output=True, text=True)
    txt = out.stdout + out.stderr
    failed, mods = [], set()
    for mm in re.finditer(r"^error: (?:\S*?)(Verif/\S+\.lean):(\d+):\d+", txt, re.M):
        n = enclosing(scratch / mm.group(1), int(mm.group(2)))
        mods.add(mm.group(1)[:-5].replace("/", "."))
        if n not in failed: failed.append(n)
    d = deps(); blocked = []
    def reaches(x, seen):
        if x in mods: return True
        if x in seen: return False
        seen.add(x)
        return any(reaches(y, seen) for y in d.get(x, []))
    for x in sorted(d):
        if x.startswith("Verif.Props.") and x not in mods and reaches(x, set()): blocked.append(x)
    f.write_text(s)
    return failed, blocked, out.returncode
if __name__ == "__main__":
    sync()
    targets = sorted({t for m in json.load(open(sys.argv[1])) for t in m.get("target", "Verif").split()})
    assert subprocess.run(["lake", "build"] + targets, cwd=scratch, capture_output=True).returncode == 0, "unmodified copy does not build"
    for m in json.load(open(sys.argv[1])):
        failed, blocked, rc = run(m)
        if any(x == m["definition"].split(".")[-1].split()[0] for x in failed) and not any(x.startswith("C") for x in failed) and blocked:
            print("INVALID  " + m["definition"] + " | " + m["edit"], failed, blocked); continue
        entry = {"definition": m["definition"], "edit": m["edit"], "claim": m["claim"],
                 "failed": failed, "modules_blocked_by_failed_lemmas": blocked, "tightened": m.get("tightened", [])}
        if rc == 0: entry["survived"] = True; entry["comment"] = m.get("comment", "")
        print(("SURVIVED " if rc == 0 else "killed   ") + m["definition"] + " | " + m["edit"], failed[:4], blocked)
        if "--dry" not in sys.argv:
            with open(root / "seeded" / "LOG.jsonl", "a") as g: g.write(json.dumps(entry, ensure_ascii=False) + "\n")
