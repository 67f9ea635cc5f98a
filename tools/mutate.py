#!/usr/bin/env python3
"""Run wrong versions of the model against the proofs, in a scratch copy.

usage: mutate.py mutations.json [--log] [name ...]

Each mutation is {"name","file","old","new","definition","edit","claim","expect":[property ids]}; "more" may list further
{"file","old","new"} of the same mutation. The edit is applied to a copy of
lean/ in $MUT (default /tmp/mut). Every declaration that no longer compiles gets its proof replaced by `sorry`
(examples are removed) until the copy builds; the theorems of Verif.Props that then depend on sorryAx are the ones that failed.
With --log one line per mutation is added to seeded/LOG.jsonl.
With --fast the copy is made afresh from lean/ with its build output, and only the modules with theorems of the expected properties are
built; theorems of other modules that fail are then not listed."""
import json, os, re, subprocess, sys, shutil
root = os.path.dirname(os.path.dirname(os.path.abspath(__file__)))
MUT = os.environ.get("MUT", "/tmp/mut")
L = f"{MUT}/lean"

FAST = "--fast" in sys.argv

def sync():
    os.makedirs(MUT, exist_ok=True)
    if FAST: shutil.rmtree(L, ignore_errors=True)
    first = not os.path.exists(L)
    if first:
        subprocess.run(["cp", "-a", f"{root}/lean", L], check=True)
    else:
        for d, _, fs in os.walk(f"{root}/lean/Verif"):
            for f in fs:
                src = os.path.join(d, f); dst = src.replace(f"{root}/lean", L)
                os.makedirs(os.path.dirname(dst), exist_ok=True)
                if not os.path.exists(dst) or open(src).read() != open(dst).read():
                    shutil.copy(src, dst)
        for d, _, fs in os.walk(f"{L}/Verif"):
            for f in fs:
                dst = os.path.join(d, f)
                if not os.path.exists(dst.replace(L, f"{root}/lean")): os.remove(dst)
        shutil.copy(f"{root}/lean/Verif.lean", f"{L}/Verif.lean")

TOP = re.compile(r"^(?:private |protected |noncomputable |@\[[^\]]*\] ?)*(theorem|lemma|example|def|abbrev|instance|structure|inductive|namespace|end|open|section|variable|set_option|#|/--|/-!|attribute|import|local|macro|syntax|elab)")

def build(targets=()):
    p = subprocess.run(["lake", "build", *targets], cwd=L, capture_output=True, text=True)
    errs = []
    for m in re.finditer(r"^error: (\S+?\.lean):(\d+):(\d+): (.*)$", p.stdout + p.stderr, re.M):
        errs.append((m.group(1), int(m.group(2)), m.group(4)))
    return p.returncode == 0, errs, p.stdout + p.stderr

def sorry_decl(lines, ln):
    """Replace the proof of the declaration containing line ln (1-based). Returns (new lines, name)."""
    i = ln - 1
    if lines[i].startswith("/--"):  # an error of the whole declaration is reported at its comment
        while not lines[i].rstrip().endswith("-/"): i += 1
        i += 1
    while i >= 0:
        m = TOP.match(lines[i])
        if m and m.group(1) in ("theorem", "lemma", "example", "def", "instance", "abbrev", "structure", "inductive"): break
        i -= 1
    kind = m.group(1)
    j = i + 1
    while j < len(lines) and not TOP.match(lines[j]): j += 1
    text = "\n".join(lines[i:j])
    name = re.match(r"^(?:private |protected |noncomputable |@\[[^\]]*\] ?)*\w+\s+(\S+)", text).group(1)
    if kind == "example":
        k = i
        if i > 0 and lines[i - 1].rstrip().endswith("-/"):
            i -= 1
            while not lines[i].startswith("/-"): i -= 1
        return lines[:i] + [""] * 0 + ["-- removed"] * (j - i) + lines[j:], "example@" + str(i + 1)
    if kind not in ("theorem", "lemma"): return None, name
    depth = 0; pos = None; k = 0
    while k < len(text):
        c = text[k]
        if c == "'" and text[k + 2:k + 3] == "'":
            k += 3; continue
        if c in "([{⟨": depth += 1
        elif c in ")]}⟩": depth -= 1
        elif text.startswith(":=", k) and depth == 0:
            seg = text[:k]
            last = max(seg.rfind("\n"), seg.rfind(";"))
            if not re.search(r"\blet\s+[^\n;]*$", seg[last + 1:]):
                pos = k; break
        elif text.startswith("\n  | ", k) and depth == 0:
            pos = k; break
        k += 1
    if pos is None: return None, name
    new = text[:pos] + " := sorry"
    pad = text.count("\n") - new.count("\n")
    return lines[:i] + new.split("\n") + [""] * pad + lines[j:], name

def targets(mu):
    if not FAST: return []
    out = []
    for f in sorted(os.listdir(f"{L}/Verif/Props")):
        if any(re.search(rf"^theorem {c}_", open(f"{L}/Verif/Props/{f}").read(), re.M) for c in mu["expect"]):
            out.append("Verif.Props." + f[:-5])
    return out

def props(mods):
    out = []
    for d, _, fs in os.walk(f"{L}/Verif/Props"):
        for f in sorted(fs):
            if mods and "Verif.Props." + f[:-5] not in mods: continue
            for line in open(os.path.join(d, f)):
                m = re.match(r"theorem (C\d+_\S+)", line)
                if m: out.append("Verif.Props." + m.group(1))
    return out

def run(mu):
    sync()
    for e in [mu] + mu.get("more", []):
        p = f"{L}/{e['file']}"
        s = open(p).read()
        if s.count(e["old"]) < 1: return {"error": "pattern not found"}
        if s.count(e["old"]) > 1 and not e.get("all"): return {"error": "pattern not unique"}
        open(p, "w").write(s.replace(e["old"], e["new"]))
    helpers = []; defs = []
    mods = targets(mu)
    for it in range(60):
        ok, errs, out = build(mods)
        if ok: break
        if not errs: return {"error": "build failed without messages: " + out[-500:]}
        byfile = {}
        for f, ln, _ in errs: byfile.setdefault(f, set()).add(ln)
        changed = False
        for f, lns in byfile.items():
            lines = open(f"{L}/{f}").read().split("\n")
            for ln in sorted(lns, reverse=True):
                new, name = sorry_decl(lines, ln)
                if new is None: defs.append(name); continue
                if new != lines: changed = True
                lines = new
                helpers.append(name)
            open(f"{L}/{f}", "w").write("\n".join(lines))
        if not changed: return {"error": "stuck", "defs": defs, "errs": [str(e) for e in errs[:5]]}
    else: return {"error": "no end", "errs": [str(e) for e in errs[:5]]}
    names = props(mods)
    ax = f"{L}/AxCheck.lean"
    open(ax, "w").write("".join(f"import {m}\n" for m in mods or ["Verif"]) + "".join(f"#print axioms {n}\n" for n in names))
    p = subprocess.run(["lake", "env", "lean", "AxCheck.lean"], cwd=L, capture_output=True, text=True)
    failed = []
    if p.stdout.count("' depends on axioms") + p.stdout.count("' does not depend") != len(names):
        return {"error": "axiom check failed: " + p.stdout[-400:]}
    for m in re.finditer(r"'(\S+)' depends on axioms: \[([^\]]*)\]", p.stdout):
        if "sorryAx" in m.group(2): failed.append(m.group(1).replace("Verif.Props.", ""))
    os.remove(ax)
    return {"failed": failed, "helpers": helpers}

if __name__ == "__main__":
    muts = json.load(open(sys.argv[1]))
    log = "--log" in sys.argv
    names = [a for a in sys.argv[2:] if not a.startswith("--")]
    for mu in muts:
        if names and mu["name"] not in names: continue
        r = run(mu)
        if "error" in r:
            print(mu["name"], "ERROR", r, flush=True); continue
        got = {f.split("_")[0] for f in r["failed"]}
        miss = [e for e in mu["expect"] if e not in got]
        print(mu["name"], "MISSED " + ",".join(miss) if miss else "caught", r["failed"], flush=True)
        if log:
            rec = {"definition": mu["definition"], "edit": mu["edit"], "claim": mu["claim"], "failed": r["failed"],
                   "tightened": mu.get("tightened", [])}
            if miss: rec["note"] = "not caught for " + ",".join(miss)
            if mu.get("note"): rec["note"] = mu["note"]
            open(f"{root}/seeded/LOG.jsonl", "a").write(json.dumps(rec, ensure_ascii=False) + "\n")
    sync()
