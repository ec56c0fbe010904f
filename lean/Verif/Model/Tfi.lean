import Verif.Model.Interp

/-!
# Model of the meshes by transfinite interpolation, `gbs-mesh/tfi.h`

Curves are objects of any class derived from `Curve`: their values, the integral of their speed, and the law that gives the parameter from the
curvilinear abscissa are parameters of the model (`LatticeCurve`). `std::round` is the parameter `round`. The loop over the lines of nodes runs in
parallel and each iteration writes its own nodes; the model runs it in order. The lines of `tfi_mesh_2d` from a surface and
the projection of the nodes are in `Model/Lattice.lean`.
-/

namespace Gbs

variable {K : Type} [Field K] [LinearOrder K]
variable {V : Type} [AddCommGroup V] [Module K V]

/-- What the mesh reads from a curve. -/
structure LatticeCurve (K V : Type) where
  /-- `bounds()` -/
  b0 : K
  b1 : K
  /-- `value(u,d)` -/
  val : K → ℕ → R V
  /-- `length(crv,u1,u2)` -/
  len : K → K → R K
  /-- `abs_curv(crv,u1,u2,n_law)`: the end of its bounds, and the function -/
  law : K → K → R (K × (K → R K))

/-- `uniform_distrib_params`, `gbs/bscanalysis.h:338-366`. An empty list has no front, and the range filled by `std::generate` ends before it
begins when `n = 1`. -/
def uniformDistrib (c : LatticeCurve K V) (u1 u2 : K) (n : ℕ) : R (List K) :=
  if n < 2 then .error .oob
  else do
    let (l, f) ← c.law u1 u2
    let dm ← fdiv l ((n : K) - 1)
    let mid ← (genSteps dm 0 (n - 2)).mapM f
    let us := u1 :: (mid ++ [u2])
    if us.Pairwise (· ≤ ·) then pure us else .error (.thrown .length)

/-- The parameters of the nodes of one curve, `gbs-mesh/tfi.h:349-364`, `413-426`. -/
def segParams (c : LatticeCurve K V) (nui : List ℕ) (u : List K) : R (List K) := do
  let m ← usub u.length 1
  forLt 0 m (fun ui P => do
    let u1 ← rd u ui
    let u2 ← rd u (ui + 1)
    let n ← rd nui ui
    let seg ← uniformDistrib c u1 u2 n
    pure (P ++ (if ui + 2 ≠ u.length then seg.dropLast else seg))) []

/-- The nodes of the curves and their derivatives, `gbs-mesh/tfi.h:365-382`, `427-444`. -/
def setNodes (P : ℕ) (crvs : List (LatticeCurve K V)) (params : List (List K)) : R (List (List (List V))) := do
  let p0 ← rd params 0
  (List.range p0.length).mapM fun i' => (List.range crvs.length).mapM fun i => do
    let c ← rd crvs i
    let p ← rd params i
    let t ← rd p i'
    (List.range P).mapM fun n => c.val t n

/-- `check_p_curves_bounds`, `gbs/curvescheck.h:37-49`; the first element is read even when there is none. -/
def sameBounds (eps : K) : List (LatticeCurve K V) → R Bool
  | [] => .error .oob
  | c :: cs => pure (cs.all fun x => decide (|x.b0 - c.b0| < eps) && decide (|x.b1 - c.b1| < eps))

/-- `msh_curves_set` with common parameters, `gbs-mesh/tfi.h:332-383`: `X[i_][i][n]`. -/
def mshCurvesSet (eps : K) (P : ℕ) (crvs : List (LatticeCurve K V)) (nui : List ℕ) (u : List K) : R (List (List (List V))) :=
  if nui.length + 1 ≠ u.length then .error (.thrown .outOfRange)
  else do
    let b ← sameBounds eps crvs
    if !b then .error (.thrown .invalid)
    else do
      let params ← crvs.mapM fun c => segParams c nui u
      setNodes P crvs params

/-- `msh_curves_set` with parameters for each curve, `gbs-mesh/tfi.h:385-445`. -/
def mshCurvesSetL (P : ℕ) (crvs : List (LatticeCurve K V)) (nui : List ℕ) (us : List (List K)) : R (List (List (List V))) :=
  match us with
  | [] => .error (.thrown .invalid)
  | u0 :: _ =>
    if nui.length + 1 ≠ u0.length then .error (.thrown .outOfRange)
    else if us.any fun u => decide (u0.length ≠ u.length) then .error (.thrown .invalid)
    else do
      let params ← (List.range crvs.length).mapM fun i => do
        let c ← rd crvs i
        let u ← rd us i
        segParams c nui u
      setNodes P crvs params

/-- The crossings, `gbs-mesh/tfi.h:499-523`: derivative `n` along the curves `ksi = cst`, `m` along the curves `eth = cst`. What is not written
keeps its zero. -/
def crossings (P Q : ℕ) (isoKsi isoEth : List (LatticeCurve K V)) (ksi eth : List K) (srf : Option (K → K → ℕ → ℕ → R V)) :
    R (List (List (List (List V)))) :=
  (List.range ksi.length).mapM fun i => (List.range eth.length).mapM fun j => (List.range P).mapM fun n => (List.range Q).mapM fun m => do
    let a ← rd ksi i
    let b ← rd eth j
    match srf with
    | some s => s a b m n
    | none =>
      if m = 0 then do
        let c ← rd isoKsi i
        c.val b n
      else if n = 0 then do
        let c ← rd isoEth j
        c.val a m
      else pure 0

/-- The crossings with parameters for each curve, `gbs-mesh/tfi.h:560-577`. -/
def crossingsL (P Q L M : ℕ) (isoKsi isoEth : List (LatticeCurve K V)) (ksi eth : List (List K)) : R (List (List (List (List V)))) :=
  (List.range L).mapM fun i => (List.range M).mapM fun j => (List.range P).mapM fun n => (List.range Q).mapM fun m =>
    if m = 0 then do
      let c ← rd isoKsi i
      let e ← rd eth i
      let b ← rd e j
      c.val b n
    else if n = 0 then do
      let c ← rd isoEth j
      let k ← rd ksi j
      let a ← rd k i
      c.val a m
    else pure 0

/-- The indices of the nodes on the lines of the lattice, `gbs-mesh/tfi.h:524-528`, `579-583`. -/
def cumIndex (nui : List ℕ) : List K := List.scanl (fun (a : K) (n : ℕ) => a + (n : K) - 1) 0 nui

/-- What `msh_curves_lattice` returns. -/
structure Lattice (K V : Type) where
  Xksi : List (List (List V))
  Xeth : List (List (List V))
  Xke : List (List (List (List V)))
  ksi : Curve K K
  eth : Curve K K

variable (eps meps growth junk : K) (sparse : ℕ → List (ℕ × ℕ × K) → List K → R (List K))

/-- `msh_curves_lattice`, `gbs-mesh/tfi.h:482-533`. -/
def mshCurvesLattice (P Q : ℕ) (isoKsi isoEth : List (LatticeCurve K V)) (ksi eth : List K) (nKsi nEth : List ℕ)
    (srf : Option (K → K → ℕ → ℕ → R V)) : R (Lattice K V) := do
  let X ← mshCurvesSet eps P isoKsi nKsi eth
  let Y ← mshCurvesSet eps Q isoEth nEth ksi
  let XY ← crossings P Q isoKsi isoEth ksi eth srf
  let f ← interpolateCn eps meps growth junk 0 sparse ksi (cumIndex nEth) 1
  let g ← interpolateCn eps meps growth junk 0 sparse eth (cumIndex nKsi) 1
  pure ⟨X, Y, XY, f, g⟩

/-- `msh_curves_lattice` with parameters for each curve, `gbs-mesh/tfi.h:535-592`. -/
def mshCurvesLatticeL (P Q : ℕ) (isoKsi isoEth : List (LatticeCurve K V)) (ksi eth : List (List K)) (nKsi nEth : List ℕ) :
    R (Lattice K V) := do
  let X ← mshCurvesSetL P isoKsi nKsi eth
  let Y ← mshCurvesSetL Q isoEth nEth ksi
  let k0 ← rd ksi 0
  let e0 ← rd eth 0
  if k0.length ≠ eth.length ∨ e0.length ≠ ksi.length then .error (.thrown .invalid)
  else do
    let XY ← crossingsL P Q k0.length e0.length isoKsi isoEth ksi eth
    let k ← makeRange 0 1 (nEth.length + 1)
    let e ← makeRange 0 1 (nKsi.length + 1)
    let f ← interpolateCn eps meps growth junk 0 sparse k (cumIndex nEth) 1
    let g ← interpolateCn eps meps growth junk 0 sparse e (cumIndex nKsi) 1
    pure ⟨X, Y, XY, f, g⟩

/-- The data of one blend function, `gbs-mesh/tfi.h:53-54`: `nc` zeros for each parameter, and one 1. -/
def blendData (L nc i n : ℕ) : R (List (List K)) := do
  let z : List (List K) := List.replicate L (List.replicate nc 0)
  let r ← rd z i
  let r ← wr r n 1
  wr z i r

/-- `build_tfi_blend_function_with_derivatives`, `gbs-mesh/tfi.h:18-34` (`nc = P + 1`), `43-59` (`nc = P + slope_control`). -/
def blendFunctions (P nc : ℕ) (ksi : List K) : R (List (List (Curve K K))) :=
  (List.range ksi.length).mapM fun i => (List.range P).mapM fun n => do
    let d ← blendData ksi.length nc i n
    interpolateNc eps meps growth junk 0 sparse nc d ksi

/-- The sum over the lines of one family, `gbs-mesh/tfi.h:625-638`. -/
def lineSum (F : List (List (Curve K K))) (L P : ℕ) (t : K) (X : List (List V)) : R V :=
  forLt 0 L (fun i s => forLt 0 P (fun n s => do
    let r ← rd F i
    let f ← rd r n
    let a ← f.value eps junk t
    let x ← rd X i
    let x ← rd x n
    pure (s + a • x)) s) 0

/-- The sum over the crossings, `gbs-mesh/tfi.h:639-651`. -/
def latticeSum (F G : List (List (Curve K K))) (L M P Q : ℕ) (t r : K) (X : List (List (List (List V)))) : R V :=
  forLt 0 L (fun i s => forLt 0 M (fun j s => forLt 0 P (fun n s => forLt 0 Q (fun m s => do
    let fi ← rd F i
    let f ← rd fi n
    let a ← f.value eps junk t
    let gj ← rd G j
    let g ← rd gj m
    let b ← g.value eps junk r
    let x ← rd X i
    let x ← rd x j
    let x ← rd x n
    let x ← rd x m
    pure (s + (a * b) • x)) s) s) s) 0

/-- One node, `gbs-mesh/tfi.h:622-652`. -/
def tfiNode (P Q : ℕ) (F G : List (List (Curve K K))) (lat : Lattice K V) (L M i' j' : ℕ) : R V := do
  let t ← lat.ksi.value eps junk (i' : K)
  let r ← lat.eth.value eps junk (j' : K)
  let x ← rd lat.Xksi j'
  let U ← lineSum eps junk F L P t x
  let y ← rd lat.Xeth i'
  let W ← lineSum eps junk G M Q r y
  let UV ← latticeSum eps junk F G L M P Q t r lat.Xke
  pure (U + W - UV)

/-- `tfi_mesh_2d` from the lattice, `gbs-mesh/tfi.h:594-657`; `slope` is `slope_ctrl`. `make_range(0, ni_ - 1)` refuses less than two lines. -/
def tfiMesh (P Q : ℕ) (slope : Bool) (lat : Lattice K V) (ksi eth : List K) : R (List V) := do
  let F ← blendFunctions eps meps growth junk sparse P (P + slope.toNat) ksi
  let G ← blendFunctions eps meps growth junk sparse Q (Q + slope.toNat) eth
  let ni := lat.Xeth.length
  let nj := lat.Xksi.length
  let m ← usub ni 1
  let is ← makeRangeInt 0 m
  is.foldlM (fun pts (i : ℤ) => forLt 0 nj (fun j' pts => do
    let x ← tfiNode eps junk P Q F G lat ksi.length eth.length i.toNat j'
    wr pts (j' + nj * i.toNat) x) pts) (List.replicate (ni * nj) 0)

/-- `msh_curves_set_sizes` from a step, `gbs-mesh/tfi.h:158-188`. -/
def setSizes (round : K → ℕ) (crvs : List (LatticeCurve K V)) (u : List K) (dm : K) : R (List ℕ) := do
  let m ← usub u.length 1
  (List.range m).mapM fun i => do
    let u1 ← rd u i
    let u2 ← rd u (i + 1)
    let ls ← crvs.mapM fun c => c.len u1 u2
    let l ← fdiv ls.sum (crvs.length : K)
    let q ← fdiv l dm
    pure (round q + 1)

/-- `msh_curves_set_sizes` from a number of nodes, `gbs-mesh/tfi.h:261-285`; `n - 1` is computed on `size_t`. -/
def setSizesN (round : K → ℕ) (crvs : List (LatticeCurve K V)) (u : List K) (n : ℕ) : R (List ℕ) := do
  let ls ← crvs.mapM fun c => c.len c.b0 c.b1
  let l ← fdiv ls.sum (crvs.length : K)
  let n1 ← usub n 1
  let dm ← fdiv l (n1 : K)
  setSizes round crvs u dm

/-- `tfi_mesh_2d` from curves, `gbs-mesh/tfi.h:675-696`: the nodes, the numbers of nodes in each direction, the sizes of the segments. -/
def tfiMeshCurves (round : K → ℕ) (P Q : ℕ) (slope : Bool) (isoKsi isoEth : List (LatticeCurve K V)) (ksi eth : List K) (nKsi nEth : ℕ)
    (srf : Option (K → K → ℕ → ℕ → R V)) : R (List V × ℕ × ℕ × List ℕ × List ℕ) := do
  let sEth ← setSizesN round isoEth ksi nEth
  let sKsi ← setSizesN round isoKsi eth nKsi
  let lat ← mshCurvesLattice eps meps growth junk sparse P Q isoKsi isoEth ksi eth sKsi sEth srf
  let pts ← tfiMesh eps meps growth junk sparse P Q slope lat ksi eth
  pure (pts, lat.Xksi.length, lat.Xeth.length, sKsi, sEth)

/-- `msh_curves_set_sizes` from a step, with parameters for each curve, `gbs-mesh/tfi.h:208-249`. -/
def setSizesL (round : K → ℕ) (crvs : List (LatticeCurve K V)) (us : List (List K)) (dm : K) : R (List ℕ) :=
  if crvs.length = 0 then .error (.thrown .invalid)
  else if crvs.length ≠ us.length then .error (.thrown .invalid)
  else do
    let u0 ← rd us 0
    if us.any fun u => decide (u0.length ≠ u.length) then .error (.thrown .invalid)
    else do
      let m ← usub u0.length 1
      (List.range m).mapM fun i => do
        let ls ← (List.range crvs.length).mapM fun a => do
          let c ← rd crvs a
          let u ← rd us a
          let u1 ← rd u i
          let u2 ← rd u (i + 1)
          c.len u1 u2
        let l ← fdiv ls.sum (crvs.length : K)
        let q ← fdiv l dm
        pure (round q + 1)

/-- `msh_curves_set_sizes` from a number of nodes, with parameters for each curve, `gbs-mesh/tfi.h:296-319`. -/
def setSizesNL (round : K → ℕ) (crvs : List (LatticeCurve K V)) (us : List (List K)) (n : ℕ) : R (List ℕ) := do
  let ls ← crvs.mapM fun c => c.len c.b0 c.b1
  let l ← fdiv ls.sum (crvs.length : K)
  let n1 ← usub n 1
  let dm ← fdiv l (n1 : K)
  setSizesL round crvs us dm

/-- `tfi_mesh_2d` from curves with their own parameters, `gbs-mesh/tfi.h:699-727`. -/
def tfiMeshCurvesL (round : K → ℕ) (P Q : ℕ) (slope : Bool) (isoKsi isoEth : List (LatticeCurve K V)) (ksi eth : List (List K)) (nKsi nEth : ℕ) :
    R (List V × ℕ × ℕ × List ℕ × List ℕ) := do
  let sEth ← setSizesNL round isoEth ksi nEth
  let sKsi ← setSizesNL round isoKsi eth nKsi
  let lat ← mshCurvesLatticeL eps meps growth junk sparse P Q isoKsi isoEth ksi eth sKsi sEth
  let ks ← makeRange 0 1 eth.length
  let es ← makeRange 0 1 ksi.length
  let pts ← tfiMesh eps meps growth junk sparse P Q slope lat ks es
  pure (pts, lat.Xksi.length, lat.Xeth.length, sKsi, sEth)

end Gbs
