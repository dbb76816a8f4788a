"""Generate lean/Verif/Data/Elements.lean and lean/Verif/Data/Densities.lean from the text files of
/repo/ries/constituents.  tools/check_data.sh compares the text that the Lean definitions render with
the original files, byte by byte."""
import re, os
here = os.path.dirname(os.path.abspath(__file__))
repo = "/repo/ries/constituents/"
out = os.path.join(here, "..", "lean", "Verif", "Data")

def q(s):
    return '"' + s.replace("\\", "\\\\").replace('"', '\\"') + '"'

def dec(s):
    m = re.fullmatch(r"(\d+)(?:(\.)(\d*))?(?:e(-?)(\d+))?", s)
    ip, dot, fp, en, ed = m.groups()
    a = f"dg {len(ip)} {int(ip)}"
    b = f"(some (dg {len(fp)} {int(fp or 0)}))" if dot else "none"
    c = f"(some ({'true' if en else 'false'}, dg {len(ed)} {int(ed)}))" if ed else "none"
    return f"⟨{a}, {b}, {c}⟩"

def val(s):
    if s == "":
        return ".empty"
    m = re.fullmatch(r"([^(]*)\(([^)]*)\)", s)
    if m:
        return f"(.unc {dec(m.group(1))} {q(m.group(2))}.toList)"
    return f"(.plain {dec(s)})"

t = open(repo + "nist_elements/elements.txt").read()
ls = t.split("\n")
i = ls.index("Atomic Number = 1")
header = ls[:i]
ps = []
P = ["Atomic Number = ", "Atomic Symbol = ", "Mass Number = ", "Relative Atomic Mass = ",
     "Isotopic Composition = ", "Standard Atomic Weight = ", "Notes = "]
body = ls[i:]
assert (len(body) + 1) % 8 == 0
for k in range(0, len(body), 8):
    v = []
    for n, pre in enumerate(P):
        assert body[k + n].startswith(pre)
        v.append(body[k + n][len(pre):])
    if k + 7 < len(body):
        assert body[k + 7] == ""
    ps.append(v)
last = ps[-1]
L = ["""import Verif.Spec.ElementsFormat

/-!
# The shipped file `ries/constituents/nist_elements/elements.txt`

Generated by `tools/gen_elements.py`; do not edit.  `tools/check_data.sh` checks that
`shippedNist.render` is the text of the file.
-/

namespace Ries

/-- the `n` last decimal digits of `v`, leading zeros included -/
def dg : ℕ → ℕ → List (Fin 10)
  | 0, _ => []
  | n + 1, v => Fin.ofNat 10 (v / 10 ^ n) :: dg n v

/-- A paragraph with the two further properties `Standard Atomic Weight` and `Notes`. -/
structure ShippedPara where
  Z : ℕ
  X : String
  A : ℕ
  amu : PropValue
  comp : PropValue
  weight : String
  notes : String

/-- its lines; the paragraph ends with an empty line -/
def ShippedPara.para (p : ShippedPara) : Para :=
  ⟨p.Z, p.X.toList, p.A, p.amu, p.comp,
    ["Standard Atomic Weight = ".toList ++ p.weight.toList, "Notes = ".toList ++ p.notes.toList, []]⟩
"""]
def chunks(h):
    return "[" + ", ".join(q(h[a:a + 40]) for a in range(0, len(h), 40)) + "]"
L.append("/-- the lines before the first paragraph, in pieces -/\ndef shippedHeader : List (List String) := [\n  " +
         ",\n  ".join(chunks(h) for h in header) + "]\n")
names = []
byZ = {}
for v in ps:
    byZ.setdefault(int(v[0]), []).append(v)
for Z, vs in byZ.items():
    pass
chunk = 0
Zs = sorted(byZ)
assert [int(v[0]) for v in ps] == sorted(int(v[0]) for v in ps)
for lo in range(0, len(Zs), 20):
    zs = Zs[lo:lo + 20]
    nm = f"shippedParas{zs[0]}"
    names.append(nm)
    rows = []
    for Z in zs:
        for v in byZ[Z]:
            rows.append(f"  ⟨{v[0]}, {q(v[1])}, {v[2]}, {val(v[3])}, {val(v[4])}, {q(v[5])}, {q(v[6])}⟩")
    L.append(f"/-- Z = {zs[0]} to {zs[-1]} -/\ndef {nm} : List ShippedPara := [\n" + ",\n".join(rows) + "]\n")
L.append("/-- all paragraphs of the file -/\ndef shippedParas : List ShippedPara :=\n  " + " ++ ".join(names) + "\n")
L.append(f"""/-- The file.  Its last paragraph ends without newline and empty line, so that the last line is
`{P[6]}{last[6]}`. -/
def shippedNist : NistFile :=
  ⟨shippedHeader.map (·.flatMap String.toList),
   (shippedParas.dropLast.map ShippedPara.para) ++
     (shippedParas.getLast?.toList.map fun p => {{ p.para with rest := p.para.rest.take 1 }}),
   {q(P[6] + last[6])}.toList⟩

end Ries
""")
open(os.path.join(out, "Elements.lean"), "w").write("\n".join(L))

# densities
t = open(repo + "geant4_densities/element_densities.txt").read()
ls = t.split("\n")
com = [l for l in ls if l.startswith("#")]
assert ls[:len(com)] == com
rows = []
for l in ls[len(com):]:
    m = re.fullmatch(r"([A-Z][a-z]?)( *)(\S+)( *)", l)
    X, b, num, e = m.groups()
    p1 = len(X) + len(b) - 2
    rows.append(f"  ⟨{q(X)}.toList, {p1}, {dec(num)}, {len(e)}⟩")
D = ["""import Verif.Data.Elements

/-!
# The shipped file `ries/constituents/geant4_densities/element_densities.txt`

Generated by `tools/gen_elements.py`; do not edit.
-/

namespace Ries
"""]
D.append("/-- the comment lines -/\ndef shippedDensityComments : List (List String) := [\n  " + ",\n  ".join(chunks(c) for c in com) + "]\n")
D.append("/-- the lines with a newline -/\ndef shippedDensityLines : List DensLine := [\n" + ",\n".join(rows[:-1]) + "]\n")
D.append("/-- the last line, which has none -/\ndef shippedDensityLast : DensLine :=\n" + rows[-1] + "\n")
D.append("""/-- The file. -/
def shippedDensities : DensFile :=
  ⟨shippedDensityComments.map (·.flatMap String.toList), shippedDensityLines, some shippedDensityLast⟩

end Ries
""")
open(os.path.join(out, "Densities.lean"), "w").write("\n".join(D))
