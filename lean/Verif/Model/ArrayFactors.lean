import Verif.Model.CrossSection

/-!
# Cross sections multiplied by arrays

`ries/cross_section.py` does not check the type of a factor, so it may be a one-dimensional numpy array.  Values are numbers or such
arrays (`Val` of `Model/CrossSection`).
-/

namespace Ries

namespace Val

/-- numpy broadcasting of a binary operator for numbers and one-dimensional arrays: equal lengths, or a stretched length 1 -/
def bcast (f : ℝ → ℝ → ℝ) : Val → Val → Except Err Val
  | sc x, sc y => .ok (sc (f x y))
  | sc x, arr ys => .ok (arr (ys.map (f x)))
  | arr xs, sc y => .ok (arr (xs.map (f · y)))
  | arr xs, arr ys =>
      if xs.length = ys.length then .ok (arr (List.zipWith f xs ys))
      else match xs, ys with
        | [x], ys => .ok (arr (ys.map (f x)))
        | xs, [y] => .ok (arr (xs.map (f · y)))
        | _, _ => .error .valueError

/-- `acc += v`: a number is replaced; an array is changed in place and keeps its shape (numpy raises `ValueError` otherwise) -/
def iadd : Val → Val → Except Err Val
  | sc x, v => bcast (· + ·) (sc x) v
  | arr xs, v => do
      match ← bcast (· + ·) (arr xs) v with
      | arr ws => if ws.length = xs.length then .ok (arr ws) else .error .valueError
      | sc _ => .error .valueError

end Val

/-- Objects that result from products with numbers and arrays. `objs` is a numpy array with `dtype=object`. -/
inductive FObj
  | leaf (l : Leaf)
  | const (c : ℝ)
  | wsum (reactions : List FObj) (scales : List Val)
  | objs (os : List FObj)

namespace FObj

/-- The loop of `CrossSectionWeightedSum.__mul__`, `ries/cross_section.py:290-295`: `other * self.scale_factors[i]` -/
def mulScales (other : Val) : List FObj → List Val → Except Err (List Val)
  | [], _ => .ok []
  | _ :: _, [] => .error .indexError
  | _ :: rs, s :: ss => do
      let p ← Val.bcast (· * ·) other s
      let ps ← mulScales other rs ss
      .ok (p :: ps)

/-- `self.__mul__(other)` of a cross section, `ries/cross_section.py:95-102, 276-295`; products of object arrays are not modelled
(`notImplemented`) -/
def mulSelf : FObj → Val → Except Err FObj
  | leaf l, f => .ok (wsum [leaf l] [f])
  | const c, f => .ok (wsum [const c] [f])
  | wsum rs ss, f => (mulScales f rs ss).map (wsum rs)
  | objs _, _ => .error .notImplemented

/-- Python's `cs * factor` -/
def mulRight : FObj → Val → Except Err FObj := mulSelf

/-- Python's `factor * cs`: a number has no product with a cross section, so `__rmul__` is used (`ries/cross_section.py:104-109, 297-302`);
an array multiplies each of its entries with the object and returns an array of the results. -/
def mulLeft : Val → FObj → Except Err FObj
  | .sc x, o => mulSelf o (.sc x)
  | .arr xs, o => (xs.mapM fun x => mulSelf o (.sc x)).map objs

/-- the scale factors of all reactions, `ries/cross_section.py:252-254, 263-265` -/
def pairScales : List FObj → List Val → Except Err (List Val)
  | [], _ => .ok []
  | _ :: _, [] => .error .indexError
  | _ :: rs, s :: ss => (pairScales rs ss).map (s :: ·)

/-- Python's `a + b` for two cross sections, `ries/cross_section.py:79-86, 228-267`. -/
def add : FObj → FObj → Except Err FObj
  | wsum rs ss, b => do
      let ss' ← pairScales rs ss
      match b with
      | leaf l => .ok (wsum (rs ++ [leaf l]) (ss' ++ [.sc 1]))
      | const c => .ok (wsum (rs ++ [const c]) (ss' ++ [.sc 1]))
      | wsum rs2 ss2 => do
          let ss2' ← pairScales rs2 ss2
          .ok (wsum (rs ++ rs2) (ss' ++ ss2'))
      | objs _ => .error .attributeError
  | objs _, _ => .error .notImplemented
  | a, b => .ok (wsum [a, b] [.sc 1, .sc 1])

mutual
/-- `obj(energy)` for a number or an array, `ries/cross_section.py:188-193, 304-323`. An array is not callable. Simplification: a leaf is
applied entry by entry. -/
def call : FObj → Val → Except Err Val
  | leaf l, .sc E => (l.eval E).map .sc
  | leaf l, .arr Es => (Es.mapM l.eval).map .arr
  | const c, _ => .ok (.sc c)
  | wsum rs ss, E => callLoop rs ss (.sc 0) E
  | objs _, _ => .error .typeError

/-- `cross_section += self.scale_factors[i] * reaction(energy)`, `ries/cross_section.py:318-323` -/
def callLoop : List FObj → List Val → Val → Val → Except Err Val
  | [], _, acc, _ => .ok acc
  | _ :: _, [], _, _ => .error .indexError
  | r :: rs, s :: ss, acc, E => do
      let v ← call r E
      let p ← Val.bcast (· * ·) s v
      let acc' ← acc.iadd p
      callLoop rs ss acc' E
end

end FObj
end Ries
