import Verif.Model.Slots
import Verif.Model.Alignment
import Verif.Model.Scatter
import Verif.Model.Interp

/-!
# What the tasks of a table calculation compute

`Model.Exec`, `Model.Slots` and `Model.Graph` say when and by whom the tasks are executed; `Model.TMatrix`, `Model.Alignment`,
`Model.Scatter`, `Model.WignerTable`, `Model.Special` and `Model.Interp` say what their `execute` functions do with their arguments.  Here the two are put together:
`TaskManager::generate_tasks` (TaskManager.hpp:439-1347) passes every task its objects and constants, the objects are locations in memory, and
every task is a program (`Prog`) that reads and writes these locations and the auxiliary space of its thread.

Simplifications: exact arithmetic; a task reads all the locations it needs before it writes the first one; the Wigner functions of every order are
precomputed (TaskManager.hpp:892 does so for orders below 100; C31 shows that `get_wigner_functions` returns the same without); the vectors filled once
(tables, results) start with zeros, as their constructors leave them.
-/
namespace Verif.Content

open Verif.Matrix (loop Mat)
open Verif.Special (Ops rDrSpheroid)
open Verif.WignerTable (Tab sineLoop)
open Verif.Clebsch
open Verif.TMatrix
open Verif.Scatter
open Verif.Graph
open Verif.Exec

/-- `GaussBasedResources` (GaussBasedResources.hpp:40-54) -/
structure Gauss where
  ct : Nat → ℝ
  w : Nat → ℝ
  s2inv : Nat → ℝ
  sinv : Nat → ℝ

/-- `ParticleGeometryResource` (ParticleGeometryResource.hpp:51-63) -/
structure Geom where
  r : Nat → ℝ
  r2 : Nat → ℝ
  drr : Nat → ℝ

/-- `ExtinctionCoefficientGrid` (only `out`), `AbsorptionCoefficientGrid` (the azimuths are those of the incoming directions),
`ScatteringMatrixGrid` (the azimuths are those of the outgoing directions; no weights) -/
structure Grid where
  out : Angles ℝ
  inn : Angles ℝ
  wt : Nat → ℝ
  cphi : Nat → ℝ
  sphi : Nat → ℝ
  wp : Nat → ℝ
  nphi : Nat

/-- the members of `TMatrixResource` that are not elements (TMatrixResource.hpp:77-106) -/
structure Head where
  nmax : Nat
  ngauss : Nat
  Qs : ℝ
  Qe : ℝ
  dQs : ℝ
  dQe : ℝ

/-- `ConvergedSizeResources` (ConvergedSizeResources.hpp:56-82): the three pointers to quadrature points, geometry and Wigner functions always point to
objects of the same order, the one with number `ptr` -/
structure Ctl where
  iteration : Nat
  nmax : Nat
  ngauss : Nat
  ptr : Option Nat
  converged : Bool
  dQs : ℝ
  dQe : ℝ

/-- constructor (ConvergedSizeResources.hpp:88-91) -/
def Ctl.new : Ctl := ⟨0, 0, 0, none, false, -1, -1⟩

/-- the contents of a location -/
inductive Val
  | unused
  | nfac (x : NFac ℂ)
  | gauss (x : Gauss)
  | geom (x : Geom)
  | grid (x : Grid)
  /-- tables for the incoming and for the outgoing angles -/
  | swig (x : Tab ℝ × Tab ℝ)
  | wigner (x : Tab ℝ)
  | inter (x : TMatrix.Inter ℂ)
  | head (x : Head)
  | block (x : Mat ℂ)
  | ctl (x : Ctl)
  | ext (x : Interp.ExtRes ℝ)
  | abs (x : Interp.AbsRes ℝ)
  | scat (x : Nat → Nat → Nat → ℝ)
  /-- auxiliary space of a thread: arrays of `Model.TMatrix`, Clebsch-Gordan coefficients -/
  | aux (a : Aux ℂ) (C : Vec ℝ)

/-! ### reading a location as an object of a certain type

An array has a fixed number of elements; what the model's functions hold beyond is not part of the object. -/

/-- an array of `n` elements -/
def arr {K : Type} [Zero K] (n : Nat) (f : Nat → K) : Nat → K := fun i => if i < n then f i else 0

/-- a matrix of that many rows and columns, without the elements beyond -/
def arr2 {K : Type} [Zero K] (n c : Nat) (f : Nat → Nat → K) : Nat → Nat → K := fun i => if i < n then arr c (f i) else fun _ => 0

/-- `Matrix` with given numbers of rows and columns -/
def mat (n : Nat) (m : Mat ℂ) : Mat ℂ := ⟨n, n, arr (n * n) m.arr⟩

def Val.toNfac : Val → NFac ℂ
  | .nfac x => x
  | _ => ⟨Mat.new 0 0, Mat.new 0 0⟩

def Val.toGauss : Val → Gauss
  | .gauss x => x
  | _ => ⟨fun _ => 0, fun _ => 0, fun _ => 0, fun _ => 0⟩

def Val.toGeom : Val → Geom
  | .geom x => x
  | _ => ⟨fun _ => 0, fun _ => 0, fun _ => 0⟩

noncomputable def Val.toGrid : Val → Grid
  | .grid x => x
  | _ => ⟨⟨fun _ => 0, fun _ => 0, fun _ => 0, 0⟩, ⟨fun _ => 0, fun _ => 0, fun _ => 0, 0⟩, fun _ => 0, fun _ => 0, fun _ => 0, fun _ => 0, 0⟩

def noTab : Tab ℝ := ⟨fun _ _ _ => 0, fun _ _ _ => 0⟩

def Val.toSwig : Val → Tab ℝ × Tab ℝ
  | .swig x => x
  | _ => (noTab, noTab)

def Val.toWigner : Val → Tab ℝ
  | .wigner x => x
  | _ => noTab

/-- `InteractionResource` for `size` quadrature points and `cols` orders (InteractionResource.hpp:194-200) -/
def Val.toInter (size cols : Nat) : Val → TMatrix.Inter ℂ
  | .inter x => ⟨arr size x.kr, arr size x.krmr, arr size x.krinv, arr size x.krmrinv, arr2 size cols x.j, arr2 size cols x.dj, arr2 size cols x.y,
      arr2 size cols x.dy, arr2 size cols x.jm, arr2 size cols x.djm⟩
  | _ => ⟨fun _ => 0, fun _ => 0, fun _ => 0, fun _ => 0, fun _ _ => 0, fun _ _ => 0, fun _ _ => 0, fun _ _ => 0, fun _ _ => 0, fun _ _ => 0⟩

def Val.toHead : Val → Head
  | .head x => x
  | _ => ⟨0, 0, 0, 0, 0, 0⟩

def Val.toBlock : Val → Mat ℂ
  | .block x => x
  | _ => Mat.new 0 0

def Val.toCtl : Val → Ctl
  | .ctl x => x
  | _ => Ctl.new

def Val.toExt : Val → Option (Interp.ExtRes ℝ)
  | .ext x => some x
  | _ => none

def Val.toAbs : Val → Option (Interp.AbsRes ℝ)
  | .abs x => some x
  | _ => none

def Val.toScat : Val → Option (Nat → Nat → Nat → ℝ)
  | .scat x => some x
  | _ => none

/-- `TMatrixAuxiliarySpace` (TMatrixResource.hpp:304-312) -/
noncomputable def Val.toAux (maxOrder : Nat) : Val → Aux ℂ
  | .aux a _ => ⟨mat (2 * maxOrder) a.Q, mat (2 * maxOrder) a.RgQ, arr (2 * maxOrder) a.piv, arr (2 * maxOrder) a.work⟩
  | _ => Aux.new maxOrder

def Val.toCG (maxOrder : Nat) : Val → Vec ℝ
  | .aux _ C => ⟨(maxOrder + 1) * (2 * maxOrder + 1), C.v, true⟩
  | _ => ⟨(maxOrder + 1) * (2 * maxOrder + 1), fun _ => 0, true⟩

/-! ### the calculation -/

/-- Everything a table calculation depends on.  `gl n` is what `get_gauss_legendre_points_and_weights` returns for order `n` (C32); `jdj`, `ydy`, `jdjm` are
`spherical_j_jdj_array` (real argument), `spherical_y_ydy_array`, `spherical_j_jdj_array` (complex argument) (C62). -/
structure Problem where
  P : Params
  minOrder : Nat
  /-- `_gauss_legendre_factor` -/
  factor : Nat
  /-- `_tolerance` -/
  tol : ℝ
  /-- `_sizes[isize]` -/
  radius : Par → ℝ
  /-- `_wavelengths[ilambda]` -/
  wavelength : Par → ℝ
  /-- `_dust_properties.get_refractive_index` (TaskManager.hpp:993-995) -/
  mr : Par → ℂ
  /-- `_shape_distribution.get_shape`, `get_weight` -/
  axisRatio : Nat → ℝ
  weight : Nat → ℝ
  /-- `compute_alignment()` and the expansion coefficients of the orientation distribution (TaskManager.hpp:1115-1117) -/
  aligned : Cell → Bool
  coeff : Cell → Vec ℝ
  /-- the angles of the table, `number_of_angles` -/
  theta : Nat → ℝ
  ntheta : Nat
  /-- number of quadrature points of the absorption grid -/
  ngrid : Nat
  accountForScattering : Bool
  gl : Nat → (Nat → ℝ) × (Nat → ℝ)
  jdj : Nat → ℂ → (Nat → ℂ) × (Nat → ℂ) → (Nat → ℂ) × (Nat → ℂ)
  ydy : Nat → ℂ → (Nat → ℂ) × (Nat → ℂ) → (Nat → ℂ) × (Nat → ℂ)
  jdjm : Nat → ℂ → (Nat → ℂ) × (Nat → ℂ) → (Nat → ℂ) × (Nat → ℂ)

namespace Problem

variable (H : Problem)

/-- `this_order` (TaskManager.hpp:884, 1141) -/
def order (ig : Nat) : Nat := H.minOrder + ig

/-- `this_ngauss` (TaskManager.hpp:494-495, 885-886, 1142-1143) -/
def ng (ig : Nat) : Nat := H.minOrder * H.factor + ig * H.factor

/-- `maximum_ngauss` (TaskManager.hpp:496-497): every `InteractionResource` has room for twice as many points (TaskManager.hpp:935) -/
def size : Nat := 2 * (H.P.maxOrder * H.factor)

/-- the rows of the matrices of an `InteractionResource` have `_maximum_order` elements: an array function works on such a row -/
def row (f : Nat → ℂ → (Nat → ℂ) × (Nat → ℂ) → (Nat → ℂ) × (Nat → ℂ)) (n : Nat) (z : ℂ) (s : (Nat → ℂ) × (Nat → ℂ)) : (Nat → ℂ) × (Nat → ℂ) :=
  (arr H.P.maxOrder (f n z s).1, arr H.P.maxOrder (f n z s).2)

end Problem

noncomputable section

variable (o : Ops ℝ) (H : Problem)

/-- `sqrt` of a real number, used as a complex number -/
def csqrt (z : ℂ) : ℂ := ((o.sqrt z.re : ℝ) : ℂ)

/-- wavenumber (InteractionResource.hpp:80) -/
def wavenumber (p : Par) : ℝ := 2 * o.pi / H.wavelength p

/-- `InteractionVariables` (TaskManager.hpp:1005-1007) and `NBasedResources` as the T-matrix tasks see them -/
def consts (p : Par) (nb : NFac ℂ) : Consts ℂ := interactionVariables (H.radius p : ℂ) (wavenumber o H p : ℂ) (H.mr p) (getAnn nb)

/-- the objects of one order as the T-matrix tasks see them -/
def points (g : Gauss) (d : Geom) (t : Tab ℝ) : Points ℂ where
  weight i := (g.w i : ℂ)
  sinv i := (g.sinv i : ℂ)
  s2inv i := (g.s2inv i : ℂ)
  r i := (d.r i : ℂ)
  r2 i := (d.r2 i : ℂ)
  drr i := (d.drr i : ℂ)
  w m i n := (t.w m i n : ℂ)
  dw m i n := (t.dw m i n : ℂ)

def pointsAt (env : Loc → Val) (ish ig : Nat) : Points ℂ := points (env (.gauss ig)).toGauss (env (.geom ish ig)).toGeom (env (.wigner ig)).toWigner

/-- following the pointers -/
def Ctl.deref (tab : Nat → Points ℂ) (c : Ctl) : Conv ℂ ℝ := ⟨c.iteration, c.nmax, c.ngauss, c.ptr.map tab, c.converged, c.dQs, c.dQe⟩

/-- T-matrix object `i` (0: single particle, 1: ensemble) -/
def toT (env : Loc → Val) (i : Nat) : TRes ℂ ℝ :=
  let h := (env (.head i)).toHead
  ⟨h.nmax, h.ngauss, fun m => mat (2 * (H.P.maxOrder + 1 - m)) (env (.block i m)).toBlock, h.Qs, h.Qe, h.dQs, h.dQe⟩

/-- the part of a T-matrix object at a location -/
def ofT (t : TRes ℂ ℝ) : Loc → Val
  | .head _ => .head ⟨t.nmax, t.ngauss, t.Qs, t.Qe, t.dQs, t.dQe⟩
  | .block _ m => .block (t.T m)
  | _ => .unused

/-- cosines, sines and inverse sines of a grid (see `Model.Scatter`) -/
def anglesOf (c : Nat → ℝ) (n : Nat) : Angles ℝ := ⟨c, fun i => sinOf o (c i), fun i => invOf (sinOf o (c i)), n⟩

/-- `get_gauss_legendre_points_and_weights_ab` with the interval from 0 to `2 π` (SpecialFunctions.hpp:737-753) -/
def fullCircle (n : Nat) : (Nat → ℝ) × (Nat → ℝ) :=
  let wfac := 1 / 2 * (2 * o.pi - 0)
  let xterm := 1 / 2 * (0 + 2 * o.pi)
  (fun i => wfac * (H.gl n).1 i + xterm, fun i => (H.gl n).2 i * wfac)

/-- the grid tasks (ExtinctionCoefficientTask.hpp:214-228, AbsorptionCoefficientTask.hpp:239-287, ScatteringMatrixTask.hpp:147-172, 220-270 with
Gauss-Legendre samples; the arguments of the constructors are in TaskManager.hpp:810-839) -/
def gridTask : Qty → Grid
  | .ext => ⟨anglesOf o (fun i => o.cos (H.theta i)) H.ntheta, ⟨fun _ => 0, fun _ => 0, fun _ => 0, 0⟩, fun _ => 0, fun _ => 0, fun _ => 0, fun _ => 0, 0⟩
  | .abs =>
    let phi := fullCircle o H H.ngrid
    ⟨anglesOf o (fun i => o.cos (H.theta i)) H.ntheta, anglesOf o (H.gl H.ngrid).1 H.ngrid, (H.gl H.ngrid).2, fun i => o.cos (phi.1 i), fun i => o.sin (phi.1 i),
      phi.2, H.ngrid⟩
  | .scat =>
    let phi := fullCircle o H (2 * H.ntheta)
    ⟨anglesOf o (H.gl H.ntheta).1 H.ntheta, anglesOf o (fun _ => o.cos (o.pi / 2)) 1, fun _ => 0, fun i => o.cos (phi.1 i), fun i => o.sin (phi.1 i), fun _ => 0,
      2 * H.ntheta⟩

/-- the tasks that compute coefficients from the T-matrix of the ensemble (TaskManager.hpp:1203-1262) -/
def measTask (q : Qty) (c : Cell) (env : Loc → Val) : Val :=
  let T := toT H env 1
  let cnn := getCnn (env .nbased).toNfac
  let g := (env (.grid q)).toGrid
  let tab := (env (.swig q)).toSwig
  let k := wavenumber o H c.par
  let a := H.radius c.par
  match q with
  | .ext =>
    let r := extinctionTask T cnn tab.2 o.pi k a g.out.n ⟨fun _ => 0, fun _ => 0, fun _ => 0⟩
    .ext ⟨r.Qext, r.Qextpol, r.Qextcpol⟩
  | .abs =>
    let r := absorptionTask T cnn tab.2 tab.1 g.cphi g.sphi g.wt g.wp o.pi k a g.out.n g.inn.n H.accountForScattering ⟨fun _ => 0, fun _ => 0⟩
    .abs ⟨r.Qabs, r.Qabspol⟩
  | .scat => .scat (scatteringTask T cnn tab.1 tab.2 g.cphi g.sphi k g.out.n g.nphi fun _ _ _ => 0)

/-- the averages over the shapes (TaskManager.hpp:1019-1069, 1216-1219); `unused`: a null pointer is followed -/
def avgTask (q : Qty) (p : Par) (env : Loc → Val) : Val :=
  match q with
  | .ext => ((Interp.averageExt H.ntheta H.P.nshape H.weight (fun i => (env (.unav .ext ⟨p, i⟩)).toExt) ⟨fun _ => 0, fun _ => 0, fun _ => 0⟩).map Val.ext).getD .unused
  | .abs => ((Interp.averageAbs H.ntheta H.P.nshape H.weight (fun i => (env (.unav .abs ⟨p, i⟩)).toAbs) ⟨fun _ => 0, fun _ => 0⟩).map Val.abs).getD .unused
  | .scat => ((Interp.averageScat (H.ntheta * (2 * H.ntheta)) H.P.nshape H.weight (fun i => (env (.unav .scat ⟨p, i⟩)).toScat)
      fun _ _ _ => 0).map Val.scat).getD .unused

/-- the `m = 0` task (TaskManager.hpp:1174-1179) with the auxiliary space `a` -/
def m0Task (c : Cell) (ig : Nat) (a : Val) (env : Loc → Val) : Aux ℂ × TRes ℂ ℝ × Conv ℂ ℝ :=
  executeM0 (fun z : ℂ => ‖z‖) Complex.I Complex.normSq Complex.re (consts o H c.par (env .nbased).toNfac)
    ((env (.inter 0)).toInter H.size H.P.maxOrder) (pointsAt env c.ish ig) (H.order ig) (H.ng ig) H.tol
    (a.toAux H.P.maxOrder, toT H env 0, (env (.conv c)).toCtl.deref (pointsAt env c.ish))

/-- the `m > 0` task (TaskManager.hpp:1316-1320); `none`: a null pointer is followed -/
def mAllTask (c : Cell) (m : Nat) (a : Val) (env : Loc → Val) : Option (Aux ℂ × TRes ℂ ℝ) :=
  executeMAll (fun z : ℂ => ‖z‖) Complex.I m (consts o H c.par (env .nbased).toNfac) ((env (.inter 0)).toInter H.size H.P.maxOrder)
    ((env (.conv c)).toCtl.deref (pointsAt env c.ish)) (a.toAux H.P.maxOrder, toT H env 0)

/-- the alignment task (TaskManager.hpp:1201-1203); the flags of the two vectors say whether all accesses were in bounds -/
def alignTask (c : Cell) (a : Val) (env : Loc → Val) : Alignment.State ℂ ℝ :=
  Alignment.execute o.sqrt (fun x : ℝ => (x : ℂ)) (H.aligned c) (toT H env 0) ⟨a.toCG H.P.maxOrder, ⟨(H.coeff c).size, (H.coeff c).v, true⟩, toT H env 1⟩

/-- What a task leaves at the locations it writes, given the contents `a` of its auxiliary space and those of the locations it reads.  "My" interaction
resource and T-matrix objects are those of slot 0 (see `Model.Slots`).  The interaction task does not use quadrature points, Wigner functions and normalisation
factors (InteractionResource.hpp:478-527), nor the pointers in `ConvergedSizeResources`. -/
def result (t : Tk) (a : Val) (env : Loc → Val) : Loc → Val :=
  match t with
  | .nbased => fun _ => .nfac (nbased (csqrt o) Complex.I ⟨Mat.new H.P.maxOrder H.P.maxOrder, Mat.new H.P.maxOrder H.P.maxOrder⟩)
  | .gauss i => fun _ =>
    let g := H.gl (2 * H.ng i)
    let s := sineLoop o g.1 (H.ng i) (fun _ => 0, fun _ => 0)
    .gauss ⟨g.1, g.2, s.1, s.2⟩
  | .wigner i => fun _ => .wigner (WignerTable.execute o (env (.gauss i)).toGauss.ct (H.order i) (H.ng i) noTab)
  | .geom is ig => fun _ =>
    let v := rDrSpheroid o (env (.gauss ig)).toGauss.ct (2 * H.ng ig) (H.axisRatio is) (fun _ => 0, fun _ => 0)
    .geom ⟨fun i => o.sqrt (v.1 i), v.1, v.2⟩
  | .grid q => fun _ => .grid (gridTask o H q)
  | .swig q => fun _ =>
    let g := (env (.grid q)).toGrid
    .swig (fill o g.inn H.P.maxOrder noTab, fill o g.out H.P.maxOrder noTab)
  | .inter c ig => fun _ => .inter (executeInteraction (H.row H.jdj) (H.row H.ydy) (H.row H.jdjm) (consts o H c.par (Val.toNfac .unused))
      (points (Val.toGauss .unused) (env (.geom c.ish ig)).toGeom (Val.toWigner .unused)) (H.order ig) (H.ng ig)
      ((env (.conv c)).toCtl.deref fun _ => points (Val.toGauss .unused) (Val.toGeom .unused) (Val.toWigner .unused))
      ((env (.inter 0)).toInter H.size H.P.maxOrder))
  | .m0 c ig => fun x =>
    let s := m0Task o H c ig a env
    match x with
    | .conv _ =>
      let old := (env (.conv c)).toCtl
      let new := s.2.2
      .ctl ⟨new.iteration, new.nmax, new.ngauss, if old.converged then old.ptr else some ig, new.converged, new.dQs, new.dQe⟩
    | x => ofT s.2.1 x
  | .mall c m => fun x => ((mAllTask o H c m a env).map fun s => ofT s.2 x).getD .unused
  | .align c => fun x =>
    let s := alignTask o H c a env
    -- (an access beyond the end of a vector: nothing is known about the result)
    if s.C.ok && s.p.ok then ofT s.out x else .unused
  | .meas q c => fun _ => measTask o H q c env
  | .reset1 _ => ofT (resetT H.P.maxOrder (toT H env 0))
  | .reset2 _ => ofT (resetT H.P.maxOrder (toT H env 1))
  | .reset3 _ => fun _ => .inter (resetInteraction H.size H.P.maxOrder ((env (.inter 0)).toInter H.size H.P.maxOrder))
  | .avg q p => fun _ => avgTask H q p env

/-- what it leaves in the auxiliary space of its thread -/
def auxAfter (t : Tk) (a : Val) (env : Loc → Val) : Val :=
  match t with
  | .m0 c ig => .aux (m0Task o H c ig a env).1 (a.toCG H.P.maxOrder)
  | .mall c m => .aux ((mAllTask o H c m a env).map (·.1) |>.getD (a.toAux H.P.maxOrder)) (a.toCG H.P.maxOrder)
  | .align c => .aux (a.toAux H.P.maxOrder) (alignTask o H c a env).C
  | _ => a

end

/-- read the locations of a list, one by one -/
def readAll {V : Type} : List Loc → (Loc → V) → ((Loc → V) → Prog (Place Loc) V) → Prog (Place Loc) V
  | [], env, k => k env
  | x :: l, env, k => .read (.inl x) fun v => readAll l (Function.update env x v) k

/-- write the locations of a list, one by one -/
def writeAll {V : Type} : List Loc → (Loc → V) → Prog (Place Loc) V → Prog (Place Loc) V
  | [], _, k => k
  | x :: l, f, k => .write (.inl x) (f x) (writeAll l f k)

/-- the program of a task on thread number `id` (`Task::execute`) -/
noncomputable def code (o : Ops ℝ) (H : Problem) (t : Tk) (id : Nat) : Prog (Place Loc) Val :=
  .read (.inr id) fun a => readAll (reads (one H.P) t ++ writes (one H.P) t) (fun _ => .unused) fun env =>
    writeAll (writes (one H.P) t) (result o H t a env) (.write (.inr id) (auxAfter o H t a env) .done)

/-- content of the objects that are used again and again, as their constructors leave it (TMatrixResource.hpp:122-131, InteractionResource.hpp:194-200) -/
noncomputable def clean (H : Problem) : Loc → Val
  | .inter _ => .inter ⟨fun _ => 0, fun _ => 0, fun _ => 0, fun _ => 0, fun _ _ => 0, fun _ _ => 0, fun _ _ => 0, fun _ _ => 0, fun _ _ => 0, fun _ _ => 0⟩
  | x => ofT (TRes.new H.P.maxOrder) x

end Verif.Content
