#!/usr/bin/env python3
"""Generate seeded edits of the model's definitions: one small change of an operator, comparison, number, branch or exception.

usage: automutate.py OUT.json PER_DEFINITION SEED

Definitions without an entry in seeded/mutations.json come first.  The result is an input of tools/mutate.py.
"""
import glob, json, random, re, sys

SWAPS = [
    (" + ", " - "), (" - ", " + "), (" * ", " + "), (" / ", " * "), (" < ", " ≤ "), (" ≤ ", " < "), (" ∧ ", " ∨ "), (" ∨ ", " ∧ "),
    (" && ", " || "), (" || ", " && "), (" ≠ ", " = "), ("min ", "max "), ("max ", "min "), ("true", "false"), ("false", "true"),
    ("0.5", "1"), (".typeError", ".valueError"), (".valueError", ".typeError"), (".indexError", ".keyError"),
    (".zeroDivision", ".valueError"), (".runtimeError", ".valueError"), (".keyError", ".indexError"), (".notImplemented", ".typeError"),
    (".attributeError", ".typeError"), ("Real.exp ", "Real.cos "), ("Real.sqrt ", "Real.exp "), ("Real.cos ", "Real.sin "),
    ("Real.sin ", "Real.cos "), ("Real.log ", "Real.exp "), (".pinf", ".ninf"), (".ninf", ".pinf"), (".nan", ".pinf"),
    (".dropLast", ".tail"), (".tail", ".dropLast"), (".drop 1", ".drop 0"), (".reverse", ""), ("== ", "!= "), ("!", ""),
]


def definitions(path):
    lines = open(path).read().split("\n")
    start = re.compile(r"(?:noncomputable |private |protected )*(?:def|abbrev) (\S+)")
    stop = re.compile(r"^(/--|/-!|end|namespace|section|open|variable|structure|inductive|noncomputable|def|abbrev|theorem|mutual|instance|@|import|$)")
    for i, l in enumerate(lines):
        m = start.match(l)
        if m:
            j = i + 1
            while j < len(lines) and not stop.match(lines[j]):
                j += 1
            yield m.group(1), "\n".join(lines[i:j])


def variants(body):
    k = body.find(":=")
    k2 = body.find("\n  |")
    k = min(x for x in (k, k2, len(body)) if x >= 0)
    head, tail = body[:k], body[k:]
    out = []
    for a, b in SWAPS:
        for m in re.finditer(re.escape(a), tail):
            out.append((head + tail[:m.start()] + b + tail[m.end():], f"`{a.strip()}` replaced by `{b.strip()}`"))
    for m in re.finditer(r"(?<![\w.\]₀-₉])(\d+)(?![\w.])", tail):
        n = int(m.group(1))
        out.append((head + tail[:m.start()] + str(n + 1) + tail[m.end():], f"{n} replaced by {n + 1}"))
    for m in re.finditer(r"\bif ([^\n]*?) then ([^\n]*?)\s+else ([^\n;]*)", tail):
        out.append((head + tail[:m.start()] + f"if {m.group(1)} then {m.group(3)} else {m.group(2)}" + tail[m.end():], "branches swapped"))
    for m in re.finditer(r"\(([\w.']+) \+\+ \(?([\w.\[\]' ]+)\)?\)", tail):
        out.append((head + tail[:m.start()] + f"({m.group(1)})" + tail[m.end():], "appended part dropped"))
    return out


def main():
    per, rnd = int(sys.argv[2]), random.Random(int(sys.argv[3]))
    have = set()
    for m in json.load(open("/verif/seeded/mutations.json")):
        for d in re.split(r"[,/ ]+", m["definition"]):
            have.add((m["file"], d.split(".")[-1]))
    new, rest = [], []
    for f in sorted(glob.glob("/verif/lean/Verif/Model/*.lean")):
        rel = "Model/" + f.split("/")[-1]
        src = open(f).read()
        for name, body in definitions(f):
            if src.count(body) != 1:
                continue
            vs = variants(body)
            rnd.shuffle(vs)
            for i, (b, what) in enumerate(vs[:per]):
                m = {"name": f"auto{sys.argv[3]}-{rel[6:-5]}-{name}-{i}", "file": rel, "old": body, "new": b, "definition": name,
                     "edit": what, "claim": "the theorems about this definition", "expect": []}
                (rest if (rel, name.split(".")[-1]) in have else new).append(m)
    json.dump(new + rest, open(sys.argv[1], "w"), indent=1, ensure_ascii=False)
    print(len(new), len(rest))


main()
