import Verif.Model.Text

/-!
# Model of the installation: `setup.py`, `MANIFEST.in` and the files that the code opens

A path is a list of names. What is modelled of setuptools: `find_packages()`, the collection of modules of a package (`build_py`), the
`include` lines of `MANIFEST.in`, and `include_package_data=True` (a file of the manifest is installed if the closest enclosing
directories contain a package). Not modelled: byte compilation, metadata, and files that setuptools adds to source distributions.
-/

namespace Ries.Package

open Ries

/-- a path relative to a root directory -/
abbrev Path := List Str

/-- names as characters -/
def toPath (p : List String) : Path := p.map String.toList

/-- the files of the repository except for the attenuation tables -/
def otherFiles : List (List String) := [
  [".gitignore"],
  ["COPYING"],
  ["MANIFEST.in"],
  ["README.md"],
  ["notebooks", "6Li.ipynb"],
  ["notebooks", "layer_target.ipynb"],
  ["pyproject.toml"],
  ["ries", "__init__.py"],
  ["ries", "constituents", "__init__.py"],
  ["ries", "constituents", "element.py"],
  ["ries", "constituents", "geant4_densities", "element_densities.txt"],
  ["ries", "constituents", "isotope.py"],
  ["ries", "constituents", "natural_element_data.py"],
  ["ries", "constituents", "nist_elements", "__init__.py"],
  ["ries", "constituents", "nist_elements", "elements.txt"],
  ["ries", "constituents", "state.py"],
  ["ries", "cross_section.py"],
  ["ries", "integration", "__init__.py"],
  ["ries", "integration", "darboux.py"],
  ["ries", "integration", "quad_partition.py"],
  ["ries", "nonresonant", "__init__.py"],
  ["ries", "nonresonant", "klein_nishina.py"],
  ["ries", "nonresonant", "nist_xrmac", "README"],
  ["ries", "nonresonant", "nist_xrmac", "__init__.py"],
  ["ries", "nonresonant", "nonresonant.py"],
  ["ries", "nonresonant", "xrmac.py"],
  ["ries", "resonance", "__init__.py"],
  ["ries", "resonance", "breit_wigner.py"],
  ["ries", "resonance", "debye_model.py"],
  ["ries", "resonance", "gauss.py"],
  ["ries", "resonance", "maxwell_boltzmann.py"],
  ["ries", "resonance", "pseudo_voigt.py"],
  ["ries", "resonance", "recoil.py"],
  ["ries", "resonance", "resonance.py"],
  ["ries", "resonance", "voigt.py"],
  ["setup.py"],
  ["source", "bibliography.bib"],
  ["source", "bibliography.rst"],
  ["source", "breit_wigner.rst"],
  ["source", "conf.py"],
  ["source", "cross_section.rst"],
  ["source", "darboux.rst"],
  ["source", "debye_model.rst"],
  ["source", "element.rst"],
  ["source", "gauss.rst"],
  ["source", "index.rst"],
  ["source", "isotope.rst"],
  ["source", "klein_nishina.rst"],
  ["source", "maxwell_boltzmann.rst"],
  ["source", "natural_element_data.rst"],
  ["source", "nonresonant.rst"],
  ["source", "pseudo_voigt.rst"],
  ["source", "quad_partition.rst"],
  ["source", "recoil.rst"],
  ["source", "resonance.rst"],
  ["source", "state.rst"],
  ["source", "voigt.rst"],
  ["source", "xrmac.rst"],
  ["tests", "__init__.py"],
  ["tests", "boron.py"],
  ["tests", "test_Phi_alpha_plot.py"],
  ["tests", "test_cross_section.py"],
  ["tests", "test_cross_section_plot.py"],
  ["tests", "test_debye_model.py"],
  ["tests", "test_debye_model_plot.py"],
  ["tests", "test_doppler_broadening_plot.py"],
  ["tests", "test_doppler_width.py"],
  ["tests", "test_element.py"],
  ["tests", "test_integration.py"],
  ["tests", "test_klein_nishina.py"],
  ["tests", "test_recoil.py"],
  ["tests", "test_resonance.py"],
  ["tests", "test_resonance_models.py"],
  ["tests", "test_state.py"],
  ["tests", "test_voigt_ppf.py"],
  ["tests", "test_xrmac.py"],
  ["tox.ini"]]

/-- `"{:02d}".format(n)` for `n < 100`, `xrmac.py:237, 239` -/
def twoDigits (n : ℕ) : Str := [Char.ofNat (48 + n / 10), Char.ofNat (48 + n % 10)]

/-- the file of the attenuation table of an element -/
def tableName (Z : ℕ) : Str := twoDigits Z ++ ".txt".toList

/-- the files of the repository -/
def repository : List Path :=
  otherFiles.map toPath ++ (List.range' 1 92).map fun Z => toPath ["ries", "nonresonant", "nist_xrmac"] ++ [tableName Z]

/-- `os.path.isfile` -/
def isFile (tree : List Path) (p : Path) : Bool := tree.contains p

/-- `find_packages()`, `setup.py:30`: the directory and all directories above it contain an `__init__.py` and have no dot in their
names -/
def isPackage (tree : List Path) (d : Path) : Bool :=
  !d.isEmpty && d.inits.tail.all fun q =>
    isFile tree (q ++ ["__init__.py".toList]) && !((q.getLastD []).contains '.')

/-- names that end in `.py` -/
def isPy (name : Str) : Bool := ".py".toList.isSuffixOf name

/-- a module of a package: `*.py` in the directory of the package -/
def isModule (tree : List Path) (p : Path) : Bool := isFile tree p && isPackage tree p.dropLast && isPy (p.getLastD [])

/-- `fnmatch` with the wildcard `*` only, which matches any characters of one name -/
def glob : Str → Str → Bool
  | [], s => s.isEmpty
  | p :: ps, s =>
    if p = '*' then s.tails.any (glob ps)
    else match s with
      | [] => false
      | c :: s => p == c && glob ps s

/-- a pattern of an `include` line: name by name -/
def globPath : Path → Path → Bool
  | [], [] => true
  | p :: ps, s :: ss => glob p s && globPath ps ss
  | _, _ => false

/-- the lines of `MANIFEST.in:16-18` -/
def manifestIn : List Path := [
  toPath ["ries", "constituents", "geant4_densities", "element_densities.txt"],
  toPath ["ries", "constituents", "nist_elements", "elements.txt"],
  toPath ["ries", "nonresonant", "nist_xrmac", "*.txt"]]

/-- a data file that is installed (`include_package_data`, `setup.py:31`): listed in the manifest, and inside of a package, possibly in
a directory of it that is no package itself -/
def isData (tree manifest : List Path) (p : Path) : Bool :=
  isFile tree p && manifest.any (globPath · p) && p.dropLast.inits.any (isPackage tree)

/-- the files of an installation, relative to the directory of installed packages -/
def installed (tree manifest : List Path) : List Path := tree.filter fun p => isModule tree p || isData tree manifest p

/-- resolve `..` in a path below the root -/
def resolve (p : Path) : Path :=
  (p.foldl (fun acc c => if c = "..".toList then acc.tail else c :: acc) []).reverse

/-- `Path(__file__).parent.absolute() / rel` in the module with the given path -/
def besideModule (module rel : Path) : Path := resolve (module.dropLast ++ rel)

/-- the files that are opened when `ries.constituents.element` is imported, `element.py:109-114` -/
def openedByElement : List Path :=
  [besideModule (toPath ["ries", "constituents", "element.py"]) (toPath ["geant4_densities", "element_densities.txt"]),
   besideModule (toPath ["ries", "constituents", "element.py"]) (toPath ["nist_elements", "elements.txt"])]

/-- the files that are opened when `ries.nonresonant.xrmac` is imported, `xrmac.py:229, 236-239` -/
def openedByXrmac : List Path := (List.range' 1 92).map fun Z =>
  besideModule (toPath ["ries", "nonresonant", "xrmac.py"]) (toPath ["..", "nonresonant", "nist_xrmac"] ++ [tableName Z])

/-- the modules of the library, and the modules of the library that each of them imports (dots replaced by slashes) -/
def imports : List (List String × List (List String)) := [
  (["ries", "cross_section"], []),
  (["ries", "integration", "darboux"], []),
  (["ries", "integration", "quad_partition"], []),
  (["ries", "constituents", "state"], []),
  (["ries", "constituents", "isotope"], []),
  (["ries", "constituents", "natural_element_data"], [["ries", "constituents", "isotope"]]),
  (["ries", "constituents", "element"], [["ries", "constituents", "natural_element_data"]]),
  (["ries", "resonance", "recoil"], []),
  (["ries", "resonance", "maxwell_boltzmann"], []),
  (["ries", "resonance", "debye_model"], []),
  (["ries", "resonance", "resonance"], [["ries", "cross_section"], ["ries", "resonance", "recoil"]]),
  (["ries", "resonance", "gauss"], [["ries", "resonance", "resonance"], ["ries", "resonance", "maxwell_boltzmann"]]),
  (["ries", "resonance", "breit_wigner"], [["ries", "resonance", "resonance"]]),
  (["ries", "resonance", "pseudo_voigt"], [["ries", "resonance", "maxwell_boltzmann"], ["ries", "resonance", "resonance"]]),
  (["ries", "resonance", "voigt"], [["ries", "resonance", "pseudo_voigt"]]),
  (["ries", "nonresonant", "nonresonant"], [["ries", "cross_section"]]),
  (["ries", "nonresonant", "klein_nishina"], [["ries", "nonresonant", "nonresonant"]]),
  (["ries", "nonresonant", "xrmac"], [["ries", "constituents", "element"], ["ries", "nonresonant", "nonresonant"]])]

/-- the files that the import system reads for a module of the given name: the module and the `__init__.py` of its packages -/
def filesOfModule (m : List String) : List Path :=
  ((toPath m).dropLast ++ [(toPath m).getLastD [] ++ ".py".toList]) ::
    ((toPath m).dropLast.inits.tail.map (· ++ ["__init__.py".toList]))

end Ries.Package
