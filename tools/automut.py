#!/usr/bin/env python3
"""Small random changes of the model's definitions, to find definitions that no theorem depends on.

usage: automut.py seed per_definition outfile [file ...]

One token of a definition is changed (a number, a comparison, an operator, a Boolean) in a scratch copy of lean/ ($MUT, default
/tmp/am) and the copy is built until the first theorem that no longer compiles. Examples that fail are removed first, so that
only theorems count. A change with which everything still builds is reported as SURVIVED."""
import json, os, random, re, subprocess, sys, signal
sys.path.insert(0, os.path.dirname(os.path.abspath(__file__)))
os.environ.setdefault("MUT", "/tmp/am")
import mutate
mutate.FAST = True
L = mutate.L; root = mutate.root
FILES = """Base/Basic CB/Add CB/Builder CB/Read CB/Str CB/Time Cert/Csr Cert/Ext Cert/GoUrl Cert/IpText Cert/Leaf Cert/Memory
Cert/Name Cert/Parse Cert/San Cert/Types Cert/Utf8 Der/GoTime Der/Model Der/OidInt Der/Types EC/Model EC/Store EC/Conc EC/Work
Sm2/Model Sm2/Exchange Sm2/Store Sm2/Buffers Sm2/Capacity Sm3/Model Sm3/Capacity Sm3/Hmac Sm3/Print Sm4/Model Sm4/Modes Sm4/Conc
Sm4/Stream Sm4/Trace CB/StrMemory CB/BuilderMemory CB/Dynamic
Util/Heap Util/Padding""".split()
SWAP = [(" < ", " ≤ "), (" ≤ ", " < "), (" > ", " ≥ "), (" ≥ ", " > "), (" == ", " != "), (" != ", " == "), (" && ", " || "),
        (" || ", " && "), (" ∧ ", " ∨ "), (" ∨ ", " ∧ "), (" + ", " - "), (" - ", " + "), ("true", "false"), ("false", "true"),
        (" <<< ", " >>> "), (" >>> ", " <<< "), (" ^^^ ", " ||| "), (" &&& ", " ||| "), (" ||| ", " &&& "), (".take ", ".drop "),
        (".drop ", ".take "), (" / ", " % "), (" % ", " / "), (" ≠ ", " = ")]

def defs(text):
    """(name, start, end) of the bodies of definitions, comments left out."""
    lines = text.split("\n"); pos = [0]
    for l in lines: pos.append(pos[-1] + len(l) + 1)
    out = []
    for i, l in enumerate(lines):
        m = re.match(r"^(?:private |protected |noncomputable |@\[[^\]]*\] ?)*(?:def|abbrev)\s+(\S+)", l)
        if not m: continue
        j = i + 1
        while j < len(lines) and not mutate.TOP.match(lines[j]): j += 1
        t = text[pos[i]:pos[j] if j < len(lines) else len(text)]
        k = t.find(":=")
        alt = t.find("\n  | ")
        if k < 0 or (0 <= alt < k): k = alt
        if k < 0: continue
        out.append((m.group(1), pos[i] + k, pos[i] + len(t)))
    return out

def points(text, a, b):
    body = text[a:b]; blocked = [False] * len(body)
    for m in re.finditer(r"--[^\n]*|/-.*?-/|\"[^\"\n]*\"", body, re.S):
        for i in range(m.start(), m.end()): blocked[i] = True
    out = []
    for o, n in SWAP:
        for m in re.finditer(re.escape(o), body):
            if o in ("true", "false") and re.match(r"\w", body[m.end():m.end() + 1] or " "): continue
            if not blocked[m.start()]: out.append((a + m.start(), a + m.end(), n))
    for m in re.finditer(r"(?<![\w.'])(0x[0-9a-fA-F]+|\d+)(?![\w'])", body):
        if blocked[m.start()]: continue
        s = m.group(1)
        n = hex(int(s, 16) ^ 1) if s.startswith("0x") else str(int(s) + 1)
        out.append((a + m.start(), a + m.end(), n))
    for m in re.finditer(r"(?<![<\w:])if (?!h |h:|let )", body):
        if not blocked[m.start()]:
            t = body.find(" then", m.end())
            if t > 0 and "\n" not in body[m.end():t] and ":" not in body[m.end():t]:
                out.append((a + m.end(), a + t, "¬ (" + body[m.end():t] + ")"))
    return out

def build_first():
    """Build until the first error. Returns None if all builds, else (file, line, message)."""
    p = subprocess.Popen(["lake", "build"], cwd=L, stdout=subprocess.PIPE, stderr=subprocess.STDOUT, text=True, start_new_session=True)
    err = None
    for line in p.stdout:
        m = re.match(r"^error: (\S+?\.lean):(\d+):(\d+): (.*)$", line)
        if m:
            err = (m.group(1), int(m.group(2)), m.group(4)); break
    if err:
        try: os.killpg(p.pid, signal.SIGKILL)
        except ProcessLookupError: pass
        p.wait(); return err
    p.wait()
    return None if p.returncode == 0 else ("?", 0, "build failed")

def decl_at(lines, ln):
    i = ln - 1
    if lines[i].startswith("/--"):
        while not lines[i].rstrip().endswith("-/"): i += 1
        i += 1
    while i >= 0:
        m = re.match(r"^(?:private |protected |noncomputable |@\[[^\]]*\] ?)*(theorem|lemma|example|def|instance|abbrev|structure|inductive)\s+(\S+)", lines[i])
        if m: return m.group(1), m.group(2)
        i -= 1
    return "?", "?"

def main():
    seed, per, outfile = int(sys.argv[1]), int(sys.argv[2]), sys.argv[3]
    rnd = random.Random(seed)
    files = sys.argv[4:] or FILES
    muts = []
    for f in files:
        text = open(f"{root}/lean/Verif/{f}.lean").read()
        for name, a, b in defs(text):
            ps = points(text, a, b)
            for p in rnd.sample(ps, min(per, len(ps))): muts.append((f, name) + p)
    rnd.shuffle(muts)
    done = set()
    if os.path.exists(outfile):
        done = {tuple(json.loads(l)["key"]) for l in open(outfile)}
    print(len(muts), "changes", flush=True)
    for f, name, a, b, new in muts:
        key = (f, name, a, new)
        if key in done: continue
        mutate.sync()
        path = f"Verif/{f}.lean"
        text = open(f"{L}/{path}").read()
        ls = text.rfind("\n", 0, a) + 1; le = text.find("\n", b)
        before = text[ls:le]; after = text[ls:a] + new + text[b:le]
        open(f"{L}/{path}", "w").write(text[:a] + new + text[b:])
        res = None; removed = 0
        while res is None:
            e = build_first()
            if e is None: res = "SURVIVED"; break
            if e[0] == "?": res = "?"; break
            lines = open(f"{L}/{e[0]}").read().split("\n")
            kind, nm = decl_at(lines, e[1])
            if kind == "example":
                new_lines, _ = mutate.sorry_decl(lines, e[1])
                open(f"{L}/{e[0]}", "w").write("\n".join(new_lines)); removed += 1
                continue
            res = "invalid" if kind in ("def", "abbrev", "instance", "structure", "inductive", "?") else f"killed by {nm}"
        r = {"key": list(key), "result": res, "before": before.strip(), "after": after.strip(), "examples": removed}
        open(outfile, "a").write(json.dumps(r, ensure_ascii=False) + "\n")
        print(f, name, res, flush=True)

if __name__ == "__main__": main()
