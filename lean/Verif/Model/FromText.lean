import Verif.Model.Basic

/-!
# Model of the reading of points from text files, `gbs-io/fromtext.h`

A file is the list of its lines (`std::getline`), or nothing when it cannot be opened; a line is a list of characters. `std::stod` is the parameter `num`,
which fails when it throws. `std::isspace` is that of the "C" locale. The approximation of the points is a parameter here; its model is `Model/Approx.lean`.
-/

namespace Gbs

/-- `std::isspace` in the "C" locale. -/
def isSpaceC (x : Char) : Bool := x == ' ' || (9 ≤ x.toNat && x.toNat ≤ 13)

/-- `s.find(c)`: what is before the first `c`, and what is after it. -/
def findCut (c : Char) : List Char → Option (List Char × List Char)
  | [] => none
  | x :: s => if x = c then some ([], s) else (findCut c s).map fun r => (x :: r.1, r.2)

theorem findCut_lt {c : Char} : ∀ {s a b : List Char}, findCut c s = some (a, b) → b.length < s.length
  | [], _, _, h => by cases h
  | x :: s, a, b, h => by
    unfold findCut at h
    split at h
    · cases h
      simp
    · obtain ⟨r, h1, h2⟩ := Option.map_eq_some_iff.mp h
      cases h2
      have := findCut_lt (a := r.1) (b := r.2) h1
      simp only [List.length_cons]
      omega

/-- The loop of `split`, `gbs-io/fromtext.h:15-23`, on what is left of the line. -/
def splitLoop (c : Char) (s : List Char) : List (List Char) :=
  match h : findCut c s with
  | none => []
  | some (a, b) =>
    a :: (match findCut c b with
      | none => [b]
      | some _ => splitLoop c b)
termination_by s.length
decreasing_by exact findCut_lt h

/-- `split`, `gbs-io/fromtext.h:9-45`. -/
def splitLine (s : List Char) (c : Char) : List (List Char) :=
  ((splitLoop c s).map fun w => w.filter fun x => !isSpaceC x).filter fun w => !w.isEmpty

variable {K : Type}

/-- The reading of one word, `gbs-io/fromtext.h:72-93`. -/
def readNum (num : List Char → Option K) (w : List Char) : R K :=
  match num w with
  | none => .error (.thrown .runtime)
  | some x => pure x

/-- The body of the loop over the lines, `gbs-io/fromtext.h:64-95`. -/
def readLine [Zero K] (num : List Char → Option K) (dim : ℕ) (c : Char) (line : List Char) : R (Fin dim → K) := do
  let v := splitLine line c
  if v.length ≠ dim then .error (.thrown .runtime)
  else do
    let xs ← v.mapM (readNum num)
    pure fun i => xs.getD i 0

/-- The points of `bscurve_approx_from_points`, `gbs-io/fromtext.h:50-97`. -/
def readPoints [Zero K] (num : List Char → Option K) (dim : ℕ) (file : Option (List (List Char))) (skip : ℕ) (c : Char) : R (List (Fin dim → K)) :=
  match file with
  | none => .error (.thrown .runtime)
  | some lines => (lines.drop skip).mapM (readLine num dim c)

/-- `bscurve_approx_from_points`, `gbs-io/fromtext.h:47-100`; the approximation with fixed ends is the parameter `approx`. -/
def curveFromText [Zero K] {C : Type} {dim : ℕ} (approx : List (Fin dim → K) → ℕ → R C) (num : List Char → Option K) (file : Option (List (List Char)))
    (p skip : ℕ) (c : Char) : R C := do
  let pts ← readPoints num dim file skip c
  approx pts p

end Gbs
