import Verif.Model.Basic
import Verif.Model.Float

/-!
# Exact-sign orientation predicate

`inc/topology/robustPredicates.h`, statement by statement. `fl` is the rounding of the floating point type after each operation, `p` its precision; the header
forbids contraction of operations. The arrays are lists; writing past the capacity of an output array or reading past the end is the error `oob`.
-/

namespace Gbs.Pred

open Fl

/-- `splitter`, lines 48-59: the loop doubles `1` exactly, `(digits + 1) / 2` times. -/
def splitter (p : ℕ) (fl : ℚ → ℚ) : ℚ := fl ((fun s => fl (s * 2))^[(p + 1) / 2] 1 + 1)

/-- `epsilon`, line 46: half of `numeric_limits<T>::epsilon()`, which is `2 ^ (1 - digits)`. -/
def epsilon (p : ℕ) (fl : ℚ → ℚ) : ℚ := fl (2 ^ (1 - (p : ℤ)) / 2)

/-- `resulterrbound`, line 60. -/
def resulterrbound (p : ℕ) (fl : ℚ → ℚ) : ℚ := fl (fl (3 + fl (8 * epsilon p fl)) * epsilon p fl)

/-- `ccwerrboundA`, line 61. -/
def ccwerrboundA (p : ℕ) (fl : ℚ → ℚ) : ℚ := fl (fl (3 + fl (16 * epsilon p fl)) * epsilon p fl)

/-- `ccwerrboundB`, line 62. -/
def ccwerrboundB (p : ℕ) (fl : ℚ → ℚ) : ℚ := fl (fl (2 + fl (12 * epsilon p fl)) * epsilon p fl)

/-- `ccwerrboundC`, line 63. -/
def ccwerrboundC (p : ℕ) (fl : ℚ → ℚ) : ℚ := fl (fl (fl (9 + fl (64 * epsilon p fl)) * epsilon p fl) * epsilon p fl)

/-- `two_sum`, lines 70-78; the pair is `(x, y)`. -/
def twoSum (fl : ℚ → ℚ) (a b : ℚ) : ℚ × ℚ :=
  let x := fl (a + b)
  let bvirt := fl (x - a)
  let avirt := fl (x - bvirt)
  let bround := fl (b - bvirt)
  let around := fl (a - avirt)
  (x, fl (around + bround))

/-- `two_diff_tail`, lines 82-89. -/
def twoDiffTail (fl : ℚ → ℚ) (a b x : ℚ) : ℚ :=
  let bvirt := fl (a - x)
  let avirt := fl (x + bvirt)
  let bround := fl (bvirt - b)
  let around := fl (a - avirt)
  fl (around + bround)

/-- `two_diff`, lines 93-97. -/
def twoDiff (fl : ℚ → ℚ) (a b : ℚ) : ℚ × ℚ :=
  let x := fl (a - b)
  (x, twoDiffTail fl a b x)

/-- `fast_two_sum`, lines 101-106. -/
def fastTwoSum (fl : ℚ → ℚ) (a b : ℚ) : ℚ × ℚ :=
  let x := fl (a + b)
  let bvirt := fl (x - a)
  (x, fl (b - bvirt))

/-- `split`, lines 110-116; the pair is `(ahi, alo)`. -/
def split (p : ℕ) (fl : ℚ → ℚ) (a : ℚ) : ℚ × ℚ :=
  let c := fl (splitter p fl * a)
  let abig := fl (c - a)
  let ahi := fl (c - abig)
  (ahi, fl (a - ahi))

/-- `two_product`, lines 120-130. -/
def twoProduct (p : ℕ) (fl : ℚ → ℚ) (a b : ℚ) : ℚ × ℚ :=
  let x := fl (a * b)
  let (ahi, alo) := split p fl a
  let (bhi, blo) := split p fl b
  let err1 := fl (x - fl (ahi * bhi))
  let err2 := fl (err1 - fl (alo * bhi))
  let err3 := fl (err2 - fl (ahi * blo))
  (x, fl (fl (alo * blo) - err3))

/-- `two_one_diff`, lines 134-139; the result is `(x2, x1, x0)`. -/
def twoOneDiff (fl : ℚ → ℚ) (a1 a0 b : ℚ) : ℚ × ℚ × ℚ :=
  let (i, x0) := twoDiff fl a0 b
  let (x2, x1) := twoSum fl a1 i
  (x2, x1, x0)

/-- `two_two_diff`, lines 143-148; the result is the array, `x0` first. -/
def twoTwoDiff (fl : ℚ → ℚ) (a1 a0 b1 b0 : ℚ) : List ℚ :=
  let (j, z0, x0) := twoOneDiff fl a1 a0 b0
  let (x3, x2, x1) := twoOneDiff fl j z0 b1
  [x0, x1, x2, x3]

/-- `estimate`, lines 152-160. -/
def estimate (fl : ℚ → ℚ) : List ℚ → R ℚ
  | [] => .error .oob
  | q :: l => .ok (l.foldl (fun q e => fl (q + e)) q)

/-- The test of lines 173, 188 and 205: the component of `e` comes first. -/
def takeE (enow fnow : ℚ) : Bool := decide (fnow > enow) == decide (fnow > -enow)

/-- `h[hindex++] = x` in an array of `cap` elements. -/
def push (cap : ℕ) (h : List ℚ) (x : ℚ) : R (List ℚ) := if h.length < cap then .ok (h ++ [x]) else .error .oob

/-- `if (hh != 0) h[hindex++] = hh`. -/
def pushNz (cap : ℕ) (h : List ℚ) (x : ℚ) : R (List ℚ) := if x ≠ 0 then push cap h x else .ok h

/-- The loops of lines 222-229 and 230-237, over the components that are left. -/
def drain (fl : ℚ → ℚ) (cap : ℕ) : List ℚ → ℚ → List ℚ → R (ℚ × List ℚ)
  | [], Q, h => .ok (Q, h)
  | g :: l, Q, h => do
    let (Qnew, hh) := twoSum fl Q g
    let h ← pushNz cap h hh
    drain fl cap l Qnew h

/-- The loop of lines 203-219 followed by those of lines 222-237. The lists are the components from `eindex` and `findex` on: with the guards of the
header `enow` and `fnow` are their heads as long as they are used. -/
def mergeLoop (fl : ℚ → ℚ) (cap : ℕ) : List ℚ → List ℚ → ℚ → List ℚ → R (ℚ × List ℚ)
  | enow :: e, fnow :: f, Q, h =>
    if takeE enow fnow then do
      let (Qnew, hh) := twoSum fl Q enow
      let h ← pushNz cap h hh
      mergeLoop fl cap e (fnow :: f) Qnew h
    else do
      let (Qnew, hh) := twoSum fl Q fnow
      let h ← pushNz cap h hh
      mergeLoop fl cap (enow :: e) f Qnew h
  | e, f, Q, h => do
    let (Q, h) ← drain fl cap e Q h
    drain fl cap f Q h
  termination_by e f => e.length + f.length

/-- Lines 186-237, from the second component on. -/
def sumTail (fl : ℚ → ℚ) (cap : ℕ) (e f : List ℚ) (Q : ℚ) : R (ℚ × List ℚ) :=
  match e, f with
  | enow :: e', fnow :: f' =>
    if takeE enow fnow then do
      let (Qnew, hh) := fastTwoSum fl enow Q
      let h ← pushNz cap [] hh
      mergeLoop fl cap e' f Qnew h
    else do
      let (Qnew, hh) := fastTwoSum fl fnow Q
      let h ← pushNz cap [] hh
      mergeLoop fl cap e f' Qnew h
  | e, f => do
    let (Q, h) ← drain fl cap e Q []
    drain fl cap f Q h

/-- `fast_expansion_sum_zeroelim`, lines 166-244; the result is the part of `h` that is written. -/
def fastExpansionSum (fl : ℚ → ℚ) (cap : ℕ) (e f : List ℚ) : R (List ℚ) :=
  match e, f with
  | enow :: e', fnow :: f' => do
    let (Q, h) ← if takeE enow fnow then sumTail fl cap e' f enow else sumTail fl cap e f' fnow
    if Q ≠ 0 ∨ h.length = 0 then push cap h Q else .ok h
  | _, _ => .error .oob

/-- `orient2d_adapt`, lines 248-314. -/
def orient2dAdapt (p : ℕ) (fl : ℚ → ℚ) (pa pb pc : ℚ × ℚ) (detsum : ℚ) : R ℚ := do
  let acx := fl (pa.1 - pc.1)
  let bcx := fl (pb.1 - pc.1)
  let acy := fl (pa.2 - pc.2)
  let bcy := fl (pb.2 - pc.2)
  let (detleft, detlefttail) := twoProduct p fl acx bcy
  let (detright, detrighttail) := twoProduct p fl acy bcx
  let B := twoTwoDiff fl detleft detlefttail detright detrighttail
  let det ← estimate fl B
  let errbound := fl (ccwerrboundB p fl * detsum)
  if det ≥ errbound ∨ -det ≥ errbound then
    return det
  let acxtail := twoDiffTail fl pa.1 pc.1 acx
  let bcxtail := twoDiffTail fl pb.1 pc.1 bcx
  let acytail := twoDiffTail fl pa.2 pc.2 acy
  let bcytail := twoDiffTail fl pb.2 pc.2 bcy
  if acxtail = 0 ∧ acytail = 0 ∧ bcxtail = 0 ∧ bcytail = 0 then
    return det
  let errbound := fl (fl (ccwerrboundC p fl * detsum) + fl (resulterrbound p fl * |det|))
  let det := fl (det + fl (fl (fl (acx * bcytail) + fl (bcy * acxtail)) - fl (fl (acy * bcxtail) + fl (bcx * acytail))))
  if det ≥ errbound ∨ -det ≥ errbound then
    return det
  let (s1, s0) := twoProduct p fl acxtail bcy
  let (t1, t0) := twoProduct p fl acytail bcx
  let C1 ← fastExpansionSum fl 8 B (twoTwoDiff fl s1 s0 t1 t0)
  let (s1, s0) := twoProduct p fl acx bcytail
  let (t1, t0) := twoProduct p fl acy bcxtail
  let C2 ← fastExpansionSum fl 12 C1 (twoTwoDiff fl s1 s0 t1 t0)
  let (s1, s0) := twoProduct p fl acxtail bcytail
  let (t1, t0) := twoProduct p fl acytail bcxtail
  let D ← fastExpansionSum fl 16 C2 (twoTwoDiff fl s1 s0 t1 t0)
  let last ← usub D.length 1
  rd D last

/-- `orient2d`, lines 329-362. -/
def orient2d (p : ℕ) (fl : ℚ → ℚ) (pa pb pc : ℚ × ℚ) : R ℚ :=
  let detleft := fl (fl (pa.1 - pc.1) * fl (pb.2 - pc.2))
  let detright := fl (fl (pa.2 - pc.2) * fl (pb.1 - pc.1))
  let det := fl (detleft - detright)
  let filter (detsum : ℚ) : R ℚ :=
    let errbound := fl (ccwerrboundA p fl * detsum)
    if det ≥ errbound ∨ -det ≥ errbound then .ok det else orient2dAdapt p fl pa pb pc detsum
  if detleft > 0 then
    if detright ≤ 0 then .ok det else filter (fl (detleft + detright))
  else if detleft < 0 then
    if detright ≥ 0 then .ok det else filter (fl (-detleft - detright))
  else .ok det

end Gbs.Pred
