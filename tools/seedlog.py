#!/usr/bin/env python3
"""Append results of tools/mutate.py to seeded/LOG.jsonl, one line per attempt.

usage: seedlog.py RESULTS.jsonl     (attempts already in the log are skipped)
"""
import json, sys
M = {m["name"]: m for m in json.load(open("/verif/seeded/mutations.json"))}
T = json.load(open("/verif/seeded/tightened.json"))
LOG = "/verif/seeded/LOG.jsonl"
old = [json.loads(l) for l in open(LOG)]
seen = {(o["name"], o.get("run", "1")) for o in old}
run = sys.argv[2] if len(sys.argv) > 2 else "1"
n = 0
with open(LOG, "a") as f:
    for l in open(sys.argv[1]):
        r = json.loads(l)
        if (r["name"], run) in seen:
            continue
        m = M[r["name"]]
        t = T.get(r["name"] + "@" + run, {})
        f.write(json.dumps({"name": r["name"], "run": run, "definition": m["definition"], "file": m["file"], "edit": m["edit"],
            "claim": m["claim"], "properties_expected_to_fail": m["expect"], "declarations_whose_proof_breaks": r.get("directly", []),
            "theorems_failed": r.get("theorems_failed", []), "not_detected": r.get("missed", []),
            "theorems_tightened": t.get("theorems", []), **({"note": t["note"]} if "note" in t else {}),
            **({"modules_rebuilt": r["scope"]} if r.get("scope") else {}),
            **({"error": r["error"]} if r.get("error") else {})}, ensure_ascii=False) + "\n")
        n += 1
print(n, "lines appended")
