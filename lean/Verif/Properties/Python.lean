import Verif.Spec.Python
import Verif.Properties.Table
import Verif.Properties.DirectCross

/-!
# C87: what the methods of the Python class `TMatrix` return
-/
namespace Verif.Python

open Verif.Table
open Verif.Direct (Obj)

theorem sq_input {x : Input} (hx : x.Ok) (hn : x.NoSingleton) (i : Nat) (dims idx : List Nat) :
    sq (x.vals.length :: dims) (i :: idx) = x.index i ++ sq dims idx := by
  unfold Input.Ok at hx
  unfold Input.NoSingleton at hn
  unfold Table.sq Input.index
  cases h : x.scalar with
  | true => simp [hx h]
  | false => simp [hn h]

theorem filter_input {x : Input} (hx : x.Ok) (hn : x.NoSingleton) (dims : List Nat) :
    (x.vals.length :: dims).filter (· ≠ 1) = x.shape ++ dims.filter (· ≠ 1) := by
  unfold Input.Ok at hx
  unfold Input.NoSingleton at hn
  unfold Input.shape
  cases h : x.scalar with
  | true => simp [hx h]
  | false => simp [hn h]

/-- the content of the array at a given index -/
noncomputable def extVal (T : Obj ℝ ℂ) (theta phi : Input) (α β : ℝ) : List Nat → ℝ
  | [it, ip, i, j] => (Direct.extinctionMatrix T α β (theta.vals[it]?.getD 0) (phi.vals[ip]?.getD 0)).get i j
  | _ => 0

/-- **C87** extinction matrix: every element of the array is the one for the corresponding angles, for every argument.  (Axes of length 1 are
dropped.) -/
theorem c87_extinction (T : Obj ℝ ℂ) (theta phi : Input) (α β : ℝ) :
    ∃ a, getExtinctionMatrix T theta phi α β = some a
      ∧ a.dims = [theta.vals.length, phi.vals.length, 4, 4].filter (· ≠ 1)
      ∧ ∀ it ip i j, ∀ th ∈ theta.vals[it]?, ∀ ph ∈ phi.vals[ip]?, i < 4 → j < 4 →
          a.get (sq [theta.vals.length, phi.vals.length, 4, 4] [it, ip, i, j]) = some ((Direct.extinctionMatrix T α β th ph).get i j) := by
  unfold getExtinctionMatrix
  dsimp only
  generalize hws : (List.range theta.vals.length).flatMap _ = ws
  have hw : ∀ w ∈ ws, InB [theta.vals.length, phi.vals.length, 4, 4] w.1 ∧ w.2 = some (extVal T theta phi α β w.1) := by
    intro w hw
    rw [← hws] at hw
    simp only [List.mem_flatMap, List.mem_map, List.mem_range] at hw
    obtain ⟨it, h1, ip, h2, i, h3, j, h4, rfl⟩ := hw
    refine ⟨.cons h1 (.cons h2 (.cons h3 (.cons h4 .nil))), ?_⟩
    simp [extVal, List.getElem?_eq_getElem h1, List.getElem?_eq_getElem h2]
  obtain ⟨a, h1, h2, h3⟩ := exec_spec ws (Arr.new [theta.vals.length, phi.vals.length, 4, 4]) hw
  have h2' : a.dims = [theta.vals.length, phi.vals.length, 4, 4] := h2
  refine ⟨a.squeeze, by rw [h1]; rfl, by unfold Arr.squeeze; rw [h2'], ?_⟩
  intro it ip i j th ht ph hp hi hj
  have b1 : it < theta.vals.length := (List.getElem?_eq_some_iff.1 ht).1
  have b2 : ip < phi.vals.length := (List.getElem?_eq_some_iff.1 hp).1
  have hB : InB [theta.vals.length, phi.vals.length, 4, 4] [it, ip, i, j] := .cons b1 (.cons b2 (.cons hi (.cons hj .nil)))
  have hg := get_squeeze (a := a) (by rw [h2']; exact hB)
  rw [h2'] at hg
  rw [hg, h3 _ hB (.inl ?_)]
  · simp only [Option.mem_def] at ht hp
    simp [extVal, ht, hp]
  · rw [← hws]
    simp only [List.mem_map, List.mem_flatMap, List.mem_range]
    exact ⟨_, ⟨it, b1, ip, b2, i, hi, j, hj, rfl⟩, rfl⟩

noncomputable def scatVal (T : Obj ℝ ℂ) (x y z w : Input) (α β : ℝ) : List Nat → ℝ
  | [a, b, c, d, i, j] => Direct.scatteringMatrix T α β (x.vals[a]?.getD 0) (y.vals[b]?.getD 0) (z.vals[c]?.getD 0) (w.vals[d]?.getD 0) i j
  | _ => 0

/-- **C87** scattering matrix: the same, for the four angles -/
theorem c87_scattering (T : Obj ℝ ℂ) (x y z w : Input) (α β : ℝ) :
    ∃ r, getScatteringMatrix T x y z w α β = some r
      ∧ r.dims = [x.vals.length, y.vals.length, z.vals.length, w.vals.length, 4, 4].filter (· ≠ 1)
      ∧ ∀ a b c d i j, ∀ ti ∈ x.vals[a]?, ∀ pi ∈ y.vals[b]?, ∀ ts ∈ z.vals[c]?, ∀ ps ∈ w.vals[d]?, i < 4 → j < 4 →
          r.get (sq [x.vals.length, y.vals.length, z.vals.length, w.vals.length, 4, 4] [a, b, c, d, i, j])
            = some (Direct.scatteringMatrix T α β ti pi ts ps i j) := by
  unfold getScatteringMatrix
  dsimp only
  generalize hws : (List.range x.vals.length).flatMap _ = ws
  have hw : ∀ v ∈ ws, InB [x.vals.length, y.vals.length, z.vals.length, w.vals.length, 4, 4] v.1 ∧ v.2 = some (scatVal T x y z w α β v.1) := by
    intro v hv
    rw [← hws] at hv
    simp only [List.mem_flatMap, List.mem_map, List.mem_range] at hv
    obtain ⟨a, h1, b, h2, c, h3, d, h4, i, h5, j, h6, rfl⟩ := hv
    refine ⟨.cons h1 (.cons h2 (.cons h3 (.cons h4 (.cons h5 (.cons h6 .nil))))), ?_⟩
    simp [scatVal, List.getElem?_eq_getElem h1, List.getElem?_eq_getElem h2, List.getElem?_eq_getElem h3, List.getElem?_eq_getElem h4]
  obtain ⟨r, h1, h2, h3⟩ := exec_spec ws (Arr.new [x.vals.length, y.vals.length, z.vals.length, w.vals.length, 4, 4]) hw
  have h2' : r.dims = [x.vals.length, y.vals.length, z.vals.length, w.vals.length, 4, 4] := h2
  refine ⟨r.squeeze, by rw [h1]; rfl, by unfold Arr.squeeze; rw [h2'], ?_⟩
  intro a b c d i j ti hti pi hpi ts hts ps hps hi hj
  have b1 : a < x.vals.length := (List.getElem?_eq_some_iff.1 hti).1
  have b2 : b < y.vals.length := (List.getElem?_eq_some_iff.1 hpi).1
  have b3 : c < z.vals.length := (List.getElem?_eq_some_iff.1 hts).1
  have b4 : d < w.vals.length := (List.getElem?_eq_some_iff.1 hps).1
  have hB : InB [x.vals.length, y.vals.length, z.vals.length, w.vals.length, 4, 4] [a, b, c, d, i, j] :=
    .cons b1 (.cons b2 (.cons b3 (.cons b4 (.cons hi (.cons hj .nil)))))
  have hg := get_squeeze (a := r) (by rw [h2']; exact hB)
  rw [h2'] at hg
  rw [hg, h3 _ hB (.inl ?_)]
  · simp only [Option.mem_def] at hti hpi hts hps
    simp [scatVal, hti, hpi, hts, hps]
  · rw [← hws]
    simp only [List.mem_map, List.mem_flatMap, List.mem_range]
    exact ⟨_, ⟨a, b1, b, b2, c, b3, d, b4, i, hi, j, hj, rfl⟩, rfl⟩

/-- **C87** (part that holds) "the output dimensions match the input arrays": one axis per argument that has an axis, then the axes of the
matrix; only if no argument is an array with exactly one element. -/
theorem c87_extinction_shape_partial (T : Obj ℝ ℂ) {theta phi : Input} (α β : ℝ) (h1 : theta.Ok) (h2 : phi.Ok) (n1 : theta.NoSingleton)
    (n2 : phi.NoSingleton) :
    ∃ a, getExtinctionMatrix T theta phi α β = some a ∧ a.dims = theta.shape ++ phi.shape ++ [4, 4]
      ∧ ∀ it ip i j, ∀ th ∈ theta.vals[it]?, ∀ ph ∈ phi.vals[ip]?, i < 4 → j < 4 →
          a.get (theta.index it ++ phi.index ip ++ [i, j]) = some ((Direct.extinctionMatrix T α β th ph).get i j) := by
  obtain ⟨a, e, hd, hg⟩ := c87_extinction T theta phi α β
  refine ⟨a, e, ?_, fun it ip i j th ht ph hp hi hj => ?_⟩
  · rw [hd, filter_input h1 n1, filter_input h2 n2, List.append_assoc]
    rfl
  · have := hg it ip i j th ht ph hp hi hj
    rw [sq_input h1 n1, sq_input h2 n2, ← List.append_assoc] at this
    exact this

theorem c87_scattering_shape_partial (T : Obj ℝ ℂ) {x y z w : Input} (α β : ℝ) (h1 : x.Ok) (h2 : y.Ok) (h3 : z.Ok) (h4 : w.Ok)
    (n1 : x.NoSingleton) (n2 : y.NoSingleton) (n3 : z.NoSingleton) (n4 : w.NoSingleton) :
    ∃ r, getScatteringMatrix T x y z w α β = some r ∧ r.dims = x.shape ++ y.shape ++ z.shape ++ w.shape ++ [4, 4]
      ∧ ∀ a b c d i j, ∀ ti ∈ x.vals[a]?, ∀ pi ∈ y.vals[b]?, ∀ ts ∈ z.vals[c]?, ∀ ps ∈ w.vals[d]?, i < 4 → j < 4 →
          r.get (x.index a ++ y.index b ++ z.index c ++ w.index d ++ [i, j]) = some (Direct.scatteringMatrix T α β ti pi ts ps i j) := by
  obtain ⟨r, e, hd, hg⟩ := c87_scattering T x y z w α β
  refine ⟨r, e, ?_, fun a b c d i j ti hti pi hpi ts hts ps hps hi hj => ?_⟩
  · rw [hd, filter_input h1 n1, filter_input h2 n2, filter_input h3 n3, filter_input h4 n4]
    simp
  · have := hg a b c d i j ti hti pi hpi ts hts ps hps hi hj
    rw [sq_input h1 n1, sq_input h2 n2, sq_input h3 n3, sq_input h4 n4] at this
    simp only [List.append_assoc]
    exact this

/-- **C87** (negation 1) an argument with one axis of length 1 loses its axis -/
theorem c87_violated_singleton (T : Obj ℝ ℂ) (th : ℝ) {phi : Input} (h : phi.Ok) (n : phi.NoSingleton) (α β : ℝ) :
    ∃ a, getExtinctionMatrix T ⟨false, [th]⟩ phi α β = some a ∧ a.dims = phi.shape ++ [4, 4]
      ∧ a.dims ≠ (⟨false, [th]⟩ : Input).shape ++ phi.shape ++ [4, 4] := by
  obtain ⟨a, e, hd, _⟩ := c87_extinction T ⟨false, [th]⟩ phi α β
  have hd' : a.dims = phi.shape ++ [4, 4] := by
    rw [hd]
    have := filter_input h n [4, 4]
    simpa using this
  refine ⟨a, e, hd', ?_⟩
  rw [hd']
  intro hc
  have := congrArg List.length hc
  simp [Input.shape] at this

theorem copyTo_get {dims : List Nat} {C : Nat → ℝ} {idx : List Nat} (h : InB dims idx) :
    (copyTo (Arr.new dims) dims.prod C).get idx = some (C (offset dims idx)) := by
  unfold copyTo Arr.get
  exact if_pos (offset_aux h 0).2

open Verif.Direct in
/-- **C87** absorption cross section: one number per angle.  (`r` is the quadrature rule; `absorbed` the sum of C77.) -/
theorem c87_absorption (T : Obj ℝ ℂ) {fuel ngauss : Nat} {r : (Nat → ℝ) × (Nat → ℝ) × (Nat → ℝ) × (Nat → ℝ)} (h : rules fuel ngauss = some r)
    (theta : Input) :
    ∃ a, getAbsorptionCrossSection T fuel theta ngauss = some a ∧ a.dims = [theta.vals.length]
      ∧ ∀ i, ∀ th ∈ theta.vals[i]?, a.get [i] = some (absorbed T th 0 ngauss r.1 r.2.1 r.2.2.1 r.2.2.2) := by
  obtain ⟨out, h1, h2, _⟩ := c77_array T h (fun i => theta.vals[i]?.getD 0) theta.vals.length fun _ => 0
  unfold getAbsorptionCrossSection
  dsimp only
  rw [h1]
  refine ⟨_, rfl, rfl, fun i th ht => ?_⟩
  have hi : i < theta.vals.length := (List.getElem?_eq_some_iff.1 ht).1
  have hB : InB [theta.vals.length] [i] := .cons hi .nil
  have hg := copyTo_get (C := out) hB
  rw [List.prod_singleton] at hg
  rw [hg, show offset [theta.vals.length] [i] = i by simp [offset], h2 i hi]
  simp only [Option.mem_def] at ht
  rw [ht]
  rfl

open Verif.Direct in
/-- **C87** the two absorption cross sections per angle -/
theorem c87_absorptions (T : Obj ℝ ℂ) {fuel ngauss : Nat} {r : (Nat → ℝ) × (Nat → ℝ) × (Nat → ℝ) × (Nat → ℝ)} (h : rules fuel ngauss = some r)
    {theta : Input} (hx : theta.Ok) :
    ∃ a, getAbsorptionCrossSections T fuel theta ngauss = some a
      ∧ (theta.NoSingleton → a.dims = theta.shape ++ [2])
      ∧ (theta.NoSingleton → ∀ i, ∀ th ∈ theta.vals[i]?, ∀ q < 2, a.get (theta.index i ++ [q]) = some (absorbed T th q ngauss r.1 r.2.1 r.2.2.1 r.2.2.2)) := by
  obtain ⟨out, h1, h2, _⟩ := c77_pairs T h (fun i => theta.vals[i]?.getD 0) theta.vals.length fun _ => 0
  unfold getAbsorptionCrossSections
  dsimp only
  rw [h1]
  refine ⟨_, rfl, fun hn => ?_, fun hn i th ht q hq => ?_⟩
  · exact filter_input hx hn [2]
  · have hi : i < theta.vals.length := (List.getElem?_eq_some_iff.1 ht).1
    have hB : InB [theta.vals.length, 2] [i, q] := .cons hi (.cons hq .nil)
    have hg := copyTo_get (C := out) hB
    have hs := get_squeeze (a := copyTo (Arr.new [theta.vals.length, 2]) (2 * theta.vals.length) out) (show InB _ _ from hB)
    rw [show (copyTo (Arr.new [theta.vals.length, 2]) (2 * theta.vals.length) out).dims = [theta.vals.length, 2] from rfl, sq_input hx hn] at hs
    rw [show [theta.vals.length, 2].prod = 2 * theta.vals.length by simp [mul_comm]] at hg
    rw [show theta.index i ++ [q] = theta.index i ++ sq [2] [q] from rfl, hs, hg, show offset [theta.vals.length, 2] [i, q] = 2 * i + q by
      simp [offset, mul_comm]]
    simp only [Option.mem_def] at ht
    have h2' := h2 i hi
    rw [ht] at h2'
    obtain rfl | rfl : q = 0 ∨ q = 1 := by omega
    · exact congrArg some h2'.1
    · exact congrArg some h2'.2

/-- **C87** (negation 2) `get_absorption_cross_section` is documented to return "an absorption cross section value or array that has the same
shape as the input angles"; for a single angle it returns an array with one axis -/
theorem c87_violated_scalar (T : Obj ℝ ℂ) {fuel ngauss : Nat} {theta : Input} (hs : theta.scalar = true) {a : Arr ℝ}
    (h : getAbsorptionCrossSection T fuel theta ngauss = some a) : a.dims.length = 1 ∧ theta.shape.length = 0 := by
  unfold getAbsorptionCrossSection at h
  dsimp only at h
  rw [Option.map_eq_some_iff] at h
  obtain ⟨C, _, rfl⟩ := h
  refine ⟨rfl, ?_⟩
  unfold Input.shape
  rw [if_pos hs]
  rfl

/-- an example of the arguments: an array of two zenith angles, one azimuth angle -/
example : (⟨false, [0, 1]⟩ : Input).Ok ∧ (⟨false, [0, 1]⟩ : Input).NoSingleton ∧ (⟨true, [2]⟩ : Input).Ok ∧ (⟨true, [2]⟩ : Input).NoSingleton
    ∧ (⟨false, [0, 1]⟩ : Input).shape ++ (⟨true, [2]⟩ : Input).shape ++ [4, 4] = [2, 4, 4] := by
  simp [Input.Ok, Input.NoSingleton, Input.shape]

end Verif.Python
