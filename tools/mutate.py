#!/usr/bin/env python3
"""Run seeded edits of the model in a scratch copy and report which property theorems fail.

usage: mutate.py MUTATIONS.json RESULTS.jsonl [name ...]

Each mutation is {"name", "file", "old", "new", "definition", "edit", "claim", "expect": ["C01", ...]}.
The edit is applied to a copy of /verif/lean in /tmp/mut (or $MUTDIR).  Declarations whose proofs fail are replaced by
`sorry` (examples are removed) until the library builds; the theorems of MANIFEST.json that then depend
on `sorryAx` are the ones that fail for the edited program.
With SCOPED=1 only the modules with theorems of the expected properties are built, and only theorems of these modules and of the
modules they import are reported.
"""
import json, os, re, shutil, subprocess, sys, time

DIR = os.environ.get("MUTDIR", "/tmp/mut")
SRC, BASE, WORK = "/verif/lean", DIR + "/base", DIR + "/work"
KW = re.compile(r"^(@\[[^\]]*\]\s*)?(private |protected |noncomputable |scoped |local |nonrec )*"
                r"(theorem|lemma|example|def|instance|abbrev|structure|inductive|class|mutual|end|section|namespace|open|"
                r"set_option|variable|import|attribute|omit|include|/--|/-!|#)")


def scope(m):
    """modules with theorems of the properties that are expected to fail"""
    claims = json.load(open(DIR + "/MANIFEST.json"))["claims"]
    thms = {t.split(".")[-1] for c in claims if c["property"] in m["expect"] for t in c["theorems"]}
    mods = []
    for d, _, fs in os.walk(os.path.join(WORK, "Verif")):
        for f in fs:
            if f.endswith(".lean"):
                p = os.path.join(d, f)
                names = set(re.findall(r"^(?:@\[[^\]]*\]\s*)?(?:theorem|lemma) (?:\S+\.)?([^\s.]+)", open(p).read(), re.M))
                if names & thms:
                    mods.append(os.path.relpath(p, WORK)[:-5].replace("/", "."))
    return sorted(mods)


def build(mods=()):
    p = subprocess.run(["timeout", "1500", "lake", "build", *mods], cwd=WORK, capture_output=True, text=True)
    return p.returncode, p.stdout + p.stderr


def blocks(lines):
    starts = [i for i, l in enumerate(lines) if KW.match(l)]
    return starts


def decl_at(lines, ln):
    """start, end (exclusive) of the declaration containing line index ln"""
    starts = blocks(lines)
    s = max([i for i in starts if i <= ln], default=0)
    e = min([i for i in starts if i > ln], default=len(lines))
    # an error may be reported at the doc comment
    while KW.match(lines[s]).group(3) in ("/--", "set_option", "open", "omit"):
        nxt = [i for i in starts if i > s]
        if not nxt:
            break
        s = nxt[0]
        e = min([i for i in starts if i > s], default=len(lines))
    return s, e


def sorry(text):
    depth = 0
    i = 0
    while i < len(text):
        c = text[i]
        if c == "'" and text[i + 2:i + 3] == "'":  # character literal
            i += 3
            continue
        if c in "([{⟨":
            depth += 1
        elif c in ")]}⟩":
            depth -= 1
        elif depth == 0 and text.startswith(":=", i) and not re.search(r"\blet [^\n]*$", text[:i]):
            return text[:i] + ":= by sorry\n\n"
        elif depth == 0 and (text.startswith("\n  | ", i) or text.startswith(" where\n", i)):
            return text[:i] + " := by sorry\n\n"
        i += 1
    return None


def run(m):
    if os.path.exists(WORK):
        shutil.rmtree(WORK)
    subprocess.check_call(["cp", "-a", BASE, WORK])
    path = os.path.join(WORK, "Verif", m["file"])
    s = open(path).read()
    edits = m["edits"] if "edits" in m else [[m["old"], m["new"]]]
    for old, new in edits:
        if s.count(old) < 1:
            return {"name": m["name"], "error": "pattern not found: " + old}
        s = s.replace(old, new, 1)
    open(path, "w").write(s)
    failed, removed, log = [], 0, []
    mods = scope(m) if os.environ.get("SCOPED") else []
    for it in range(25):
        rc, out = build(mods)
        errs = {}
        for f, ln, msg in re.findall(r"error: (Verif/\S+\.lean):(\d+):\d+: (.*)", out):
            errs.setdefault(f, []).append((int(ln) - 1, msg))
        if rc == 0:
            break
        if not errs:
            return {"name": m["name"], "error": "build: " + out[-1500:], "failed": failed}
        for f, es in errs.items():
            p = os.path.join(WORK, f)
            lines = open(p).read().split("\n")
            lines = [l + "\n" for l in lines]
            spans = {}
            for ln, msg in es:
                spans.setdefault(decl_at(lines, min(ln, len(lines) - 1)), msg)
            for (a, b), msg in sorted(spans.items(), reverse=True):
                text = "".join(lines[a:b])
                mm = re.match(r"(?:@\[[^\]]*\]\s*)?((?:private |protected |noncomputable |nonrec )*)(\w+)\s+(\S+)?", text)
                kind, nm = mm.group(2), mm.group(3)
                log.append(f"{f}:{a+1} {kind} {nm}: {msg[:80]}")
                if kind == "example":
                    lines[a:b] = ["\n"]
                    # drop a preceding doc comment
                    j = a - 1
                    while j >= 0 and lines[j].strip() == "":
                        j -= 1
                    if j >= 0 and lines[j].rstrip().endswith("-/"):
                        k = j
                        while k >= 0 and not lines[k].startswith("/-"):
                            k -= 1
                        if lines[k].startswith("/--"):
                            lines[k:j + 1] = ["\n"]
                    removed += 1
                elif kind in ("theorem", "lemma"):
                    t = sorry(text)
                    if t is None or ":= by sorry" in text:
                        return {"name": m["name"], "error": "cannot sorry " + log[-1], "failed": failed}
                    lines[a:b] = [t]
                    failed.append(nm)
                else:
                    return {"name": m["name"], "error": "definition fails: " + log[-1], "failed": failed}
            open(p, "w").write("".join(lines))
    else:
        return {"name": m["name"], "error": "too many rounds", "failed": failed}
    claims = json.load(open(DIR + "/MANIFEST.json"))["claims"]
    thms = sorted({t for c in claims for t in c["theorems"]})
    q = "".join("import " + x + "\n" for x in mods or ["Verif"]) + "import Lean.Util.CollectAxioms\nopen Lean Elab Command\n" \
        "run_cmd\n  for n in [" + ", ".join("`" + t for t in thms) + "] do\n" \
        "    if (← getEnv).contains n then\n" \
        "      let ax ← liftCoreM (collectAxioms n)\n" \
        "      if ax.contains ``sorryAx then logInfo m!\"BAD {n}\"\n"
    open(DIR + "/Q.lean", "w").write(q)
    p = subprocess.run(["lake", "env", "lean", DIR + "/Q.lean"], cwd=WORK, capture_output=True, text=True)
    bad = sorted(set(re.findall(r"BAD (\S+)", p.stdout)))
    if ": error" in p.stdout or p.returncode:
        return {"name": m["name"], "error": "query: " + p.stdout[-1000:] + p.stderr[-500:], "failed": failed}
    return {"name": m["name"], "theorems_failed": [b.replace("Ries.", "") for b in bad], "directly": failed,
            "examples_removed": removed, "log": log, **({"scope": mods} if mods else {})}


def main():
    muts = json.load(open(sys.argv[1]))
    names = sys.argv[3:]
    if not os.path.exists(BASE) or os.environ.get("FRESH"):
        shutil.rmtree(BASE, ignore_errors=True)
        os.makedirs(DIR, exist_ok=True)
        subprocess.check_call(["cp", "-a", SRC, BASE])
        shutil.copy("/verif/MANIFEST.json", DIR + "/MANIFEST.json")
    done = set()
    if os.path.exists(sys.argv[2]):
        done = {json.loads(l)["name"] for l in open(sys.argv[2])}
    for m in muts:
        if names and m["name"] not in names or (not names and m["name"] in done):
            continue
        t = time.time()
        r = run(m)
        r["seconds"] = round(time.time() - t)
        hit = {re.search(r"C\d+", b).group() for b in r.get("theorems_failed", []) if re.search(r"C\d+", b)}
        r["missed"] = [c for c in m["expect"] if c not in hit]
        with open(sys.argv[2], "a") as f:
            f.write(json.dumps(r, ensure_ascii=False) + "\n")
        print(r["name"], r.get("error", ""), "missed:", r["missed"], "failed:", r.get("theorems_failed"), r["seconds"], "s", flush=True)


main()
