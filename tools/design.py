#!/usr/bin/env python3
"""Regenerates the part of DESIGN.md below the marker: axioms of each theorem and coverage of the source."""
import ast, json, pathlib, re, subprocess, sys
root = pathlib.Path(__file__).resolve().parent.parent
src = pathlib.Path("/repo/src/evotorch")
MARK = "<!-- generated by tools/design.py -->"

def theorems():
    out = []
    for f in sorted((root / "lean/Verif/Props").glob("*.lean")):
        ns = ""
        for line in f.read_text().splitlines():
            m = re.match(r"namespace (\S+)", line)
            if m: ns = m.group(1)
            m = re.match(r"theorem (C\d\d\S*)", line)
            if m: out.append((f.stem, ns + "." + m.group(1)))
    return out

def axioms(ths):
    text = "import Verif\n" + "\n".join(f"#print axioms {n}" for _, n in ths) + "\n"
    p = root / "lean/.axioms_tmp.lean"
    p.write_text(text)
    r = subprocess.run(["lake", "env", "lean", str(p)], cwd=root / "lean", capture_output=True, text=True)
    p.unlink()
    res = {}
    flat = re.sub(r"\n\s+", " ", r.stdout)
    for line in flat.splitlines():
        m = re.search(r"'(\S+)' depends on axioms: \[(.*)\]", line)
        if m: res[m.group(1)] = tuple(sorted(a.strip() for a in m.group(2).split(",")))
        m = re.search(r"'(\S+)' does not depend on any axioms", line)
        if m: res[m.group(1)] = ()
    return res

def citations():
    files = {str(p.relative_to(src)): set() for p in src.rglob("*.py")}
    names = {}
    for f in files: names.setdefault(pathlib.Path(f).name, []).append(f)
    pat = re.compile(r"((?:[A-Za-z_]+/)*[A-Za-z_]+\.py)`?:? ?((?:\d+(?:-\d+)?(?:, | and )?)+)")
    for m in sorted((root / "lean/Verif/Model").glob("*.lean")):
        for c in pat.finditer(re.sub(r"\s+", " ", m.read_text())):
            f = c.group(1)
            f = f.split("src/evotorch/")[-1]
            if f == "misc.py": f = "tools/misc.py"
            cands = [g for g in files if g == f or g.endswith("/" + f)]
            if len(cands) != 1:
                print("unresolved citation", m.name, c.group(0), file=sys.stderr); continue
            for r in re.finditer(r"(\d+)(?:-(\d+))?", c.group(2)):
                a = int(r.group(1)); b = int(r.group(2) or a)
                files[cands[0]].update(range(a, b + 1))
        for c in re.finditer(r"((?:[A-Za-z_]+/)*[A-Za-z_]+\.py)`\)?:? ?((?:(?!\.py).)*?)-/", re.sub(r"\s+", " ", m.read_text())):
            f = c.group(1).split("src/evotorch/")[-1]
            cands = [g for g in files if g == f or g.endswith("/" + f)]
            if len(cands) == 1:
                for r in re.finditer(r"\b(\d{2,4})-(\d{2,4})\b", c.group(2)):
                    files[cands[0]].update(range(int(r.group(1)), int(r.group(2)) + 1))
    return files

def functions(f):
    t = ast.parse((src / f).read_text())
    out = []
    def go(node, prefix):
        for n in ast.iter_child_nodes(node):
            if isinstance(n, ast.ClassDef): go(n, prefix + n.name + ".")
            elif isinstance(n, (ast.FunctionDef, ast.AsyncFunctionDef)):
                lines = set(range(n.lineno, n.end_lineno + 1))
                out.append((prefix + n.name, lines))
    go(t, "")
    return out

def main():
    ths = theorems(); ax = axioms(ths)
    o = [MARK, "", "## 6. Axioms of each theorem", "",
         "Output of `#print axioms` for every property theorem (regenerate with `python3 tools/design.py`). No theorem depends on anything but `propext`, `Classical.choice` and `Quot.sound`.", ""]
    groups = {}
    for stem, n in ths:
        a = ax.get(n)
        if a is None: print("no axioms for", n, file=sys.stderr); continue
        groups.setdefault(a, []).append(n.split(".")[-1])
    for a in sorted(groups):
        o.append(f"* **{', '.join(a) or 'no axioms'}** ({len(groups[a])} theorems): " + ", ".join(sorted(groups[a])))
    o += ["", "## 7. Coverage of the source", "",
          "A function is listed as modelled if a definition of the model cites lines of it; the citation says which lines and what is simplified. Everything else is not modelled. Derived from the citations in `lean/Verif/Model`.", ""]
    cites = citations(); tot = cov = 0
    for f in sorted(cites):
        fs = functions(f)
        if not fs: continue
        yes = [n for n, l in fs if l & cites[f]]; no = [n for n, l in fs if not (l & cites[f])]
        tot += len(fs); cov += len(yes)
        o.append(f"### `{f}` ({len(yes)} of {len(fs)})"); o.append("")
        if yes: o.append("* modelled: " + ", ".join(f"`{n}`" for n in yes))
        if no: o.append("* not modelled: " + ", ".join(f"`{n}`" for n in no))
        o.append("")
    o.insert(o.index("## 7. Coverage of the source") + 3, f"Total: {cov} of {tot} functions and methods (nested functions are counted with the enclosing one).\n")
    d = (root / "DESIGN.md").read_text().split(MARK)[0]
    (root / "DESIGN.md").write_text(d.rstrip() + "\n\n" + "\n".join(o))
    print(cov, "of", tot, "functions;", {k: len(v) for k, v in groups.items()})
main()
