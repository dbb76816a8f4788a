"""Generate lean/Verif/Data/XrmacTables.lean from /repo/ries/nonresonant/nist_xrmac/*.txt.
tools/check_data.sh compares the rendered text with the original files, byte by byte."""
import os, re
here = os.path.dirname(os.path.abspath(__file__))
out = os.path.join(here, "..", "lean", "Verif", "Data")
LAB = ["   ", "K  ", "L1 ", "L2 ", "L3 ", "M1 ", "M2 ", "M3 ", "M4 ", "M5 ", "N1 ", "N2 ", "N3 "]
L = ["""import Verif.Data.Elements

/-!
# The shipped tables `ries/nonresonant/nist_xrmac/01.txt` to `92.txt`

Generated by `tools/gen_xrmac.py`; do not edit.  A line is encoded as a natural number with the decimal
digits `label eeeeee s xx mmmm s xx nnnn s xx`: the index of the label, and for each of the three
numbers the digits of the mantissa, the sign of the exponent (1 for minus) and its two digits.
`tools/check_data.sh` checks that `xrmacText Z` is the text of the file.
-/

namespace Ries

/-- the labels that occur -/
def xrmacLabels : List String := [""" + ", ".join('"%s"' % l for l in LAB) + """]

/-- the number encoded by `n + 1` digits of the mantissa, a sign and two digits -/
def sciOf (n v : ℕ) : Sci :=
  ⟨Fin.ofNat 10 (v / 10 ^ (n + 3)), dg n (v / 1000), v / 100 % 10 == 1, Fin.ofNat 10 (v / 10),
    Fin.ofNat 10 v⟩

/-- the line encoded by a number -/
def xrmacLine (labelled : Bool) (v : ℕ) : Line :=
  ⟨if labelled then ((xrmacLabels[v / 10 ^ 23]?).getD "   ").toList else [],
    sciOf 5 (v / 10 ^ 14), sciOf 3 (v / 10 ^ 7), sciOf 3 v⟩
"""]
tabs = []
nonl = []
for Z in range(1, 93):
    t = open("/repo/ries/nonresonant/nist_xrmac/%02d.txt" % Z).read()
    if not t.endswith("\n"):
        nonl.append(Z)
    else:
        t = t[:-1]
    rows = []
    labelled = not t[0].isdigit()
    for l in t.split("\n"):
        m = re.fullmatch(r"(.{3})?(\d)\.(\d{5})E([+-])(\d\d)  (\d)\.(\d{3})E([+-])(\d\d)  (\d)\.(\d{3})E([+-])(\d\d) ", l)
        g = m.groups()
        assert (g[0] is not None) == labelled
        s = lambda c: "1" if c == "-" else "0"
        rows.append(str(int((str(LAB.index(g[0])) if labelled else "") + g[1] + g[2] + s(g[3]) + g[4] + g[5] + g[6] + s(g[7]) + g[8] + g[9] + g[10] + s(g[11]) + g[12])))
    tabs.append((Z, labelled, rows))
for Z, lab, rows in tabs:
    L.append(f"def xrmacTable{Z} : Bool × List ℕ := ({'true' if lab else 'false'}, [\n  " + ",\n  ".join(
        ", ".join(rows[i:i + 3]) for i in range(0, len(rows), 3)) + "])\n")
L.append("/-- all tables; the list begins with Z = 1 -/\ndef xrmacTables : List (Bool × List ℕ) := [\n  " +
         ", ".join(f"xrmacTable{Z}" for Z, _, _ in tabs) + "]\n")
assert nonl == [82]
L.append("""/-- the lines of the table of an element -/
def xrmacLines (Z : ℕ) : List Line :=
  let t := (xrmacTables[Z - 1]?).getD (false, [])
  t.2.map (xrmacLine t.1)

/-- The text of the file.  The last line of `82.txt` has no newline. -/
def xrmacText (Z : ℕ) : Str :=
  if Z = 82 then (xrmacLines Z).dropLast.flatMap Line.render ++
    (xrmacLines Z).getLast?.toList.flatMap fun l => l.body ++ [' ']
  else (xrmacLines Z).flatMap Line.render

end Ries
""")
open(os.path.join(out, "XrmacTables.lean"), "w").write("\n".join(L))
