import Verif.Spec.Calculated
import Verif.Props.MathUtils
import Verif.Props.TorusChannels

/-!
# Properties C98, C99: containers that calculate the positions of their elements
-/

namespace Marxs
open Matrix

/-! ## C98 -/

theorem conformal_of_rotation (p : Fin 3 → ℝ) {r : M3} (hr : IsRotation r) :
    Conformal (compose p r ![1, 1, 1]) 1 ∧
    (vX (compose p r ![1, 1, 1])).xyz.cross (vY (compose p r ![1, 1, 1])).xyz =
      (vZ (compose p r ![1, 1, 1])).xyz := by
  obtain ⟨h1, h2⟩ := hr
  have e : ∀ i j, (rᵀ * r) i j = (1 : M3) i j := fun i j => by rw [h1]
  have hinv : r⁻¹ = rᵀ := Matrix.inv_eq_left_inv h1
  have hadj : r.adjugate = rᵀ := by
    rw [← hinv, Matrix.inv_def, h2]; simp
  have a : ∀ i j, r.adjugate i j = rᵀ i j := fun i j => by rw [hadj]
  simp only [Matrix.mul_apply, Fin.sum_univ_three, Matrix.transpose_apply] at e
  have e00 := e 0 0; have e11 := e 1 1; have e22 := e 2 2
  have e01 := e 0 1; have e02 := e 0 2; have e12 := e 1 2
  simp at e00 e11 e22 e01 e02 e12
  have a20 := a 2 0; have a21 := a 2 1; have a22 := a 2 2
  simp only [Matrix.adjugate_fin_three, Matrix.transpose_apply] at a20 a21 a22
  simp at a20 a21 a22
  refine ⟨⟨affine_compose _ _ _, ?_, ?_, ?_, ?_, ?_, ?_⟩, ?_⟩
  all_goals simp [vX, vY, vZ, col, compose, H4.xyz, V3.dot]
  · linarith
  · linarith
  · linarith
  · linarith
  · linarith
  · linarith
  · ext <;> simp <;> linarith

theorem calcOne_placed (p n s : H4) (hp : p.w = 1) (hn : n.w = 0 ∨ n.w = 1) (hs : s.w = 0 ∨ s.w = 1)
    (h : TwoDirections n.xyz s.xyz) :
    ∃ m, calcOne p n s = .ok (some m) ∧ PlacedAs m p.xyz n.xyz s.xyz := by
  obtain ⟨r, h1, hr, hx, ⟨a, b, hy, hb⟩, hz1, hz2⟩ := C16_ex2vec_rotation n.xyz s.xyz h.1 h.2.1 h.2.2
  have en : h2e [n] = .ok [n.xyz] := by rcases hn with hn | hn; exacts [h2e_dir hn, h2e_point hn]
  have es : h2e [s] = .ok [s.xyz] := by rcases hs with hs | hs; exacts [h2e_dir hs, h2e_point hs]
  have ep := h2e_point hp
  refine ⟨compose ![p.xyz.x, p.xyz.y, p.xyz.z] r ![1, 1, 1], ?_, ?_⟩
  · simp only [calcOne, en, es, h1, ep, Option.map_some]
  · obtain ⟨hc, hright⟩ := conformal_of_rotation ![p.xyz.x, p.xyz.y, p.xyz.z] hr
    have ex : (vX (compose ![p.xyz.x, p.xyz.y, p.xyz.z] r ![1, 1, 1])).xyz = mul3 r ⟨1, 0, 0⟩ := by
      ext <;> simp [vX, col, compose, H4.xyz, mul3]
    have ey : (vY (compose ![p.xyz.x, p.xyz.y, p.xyz.z] r ![1, 1, 1])).xyz = mul3 r ⟨0, 1, 0⟩ := by
      ext <;> simp [vY, col, compose, H4.xyz, mul3]
    have ez : (vZ (compose ![p.xyz.x, p.xyz.y, p.xyz.z] r ![1, 1, 1])).xyz = mul3 r ⟨0, 0, 1⟩ := by
      ext <;> simp [vZ, col, compose, H4.xyz, mul3]
    have hn0 := V3.norm_pos h.1
    refine ⟨hc, hright, ?_, ⟨1 / n.xyz.norm, by positivity, ?_⟩, ⟨a, b, by rw [ey, hy], hb⟩, by rw [ez, hz1],
      by rw [ez, hz2]⟩
    · ext <;> simp [center, col, compose, H4.xyz]
    · rw [ex]
      generalize n.xyz.norm = c at hx hn0
      rw [← hx]
      ext <;> simp <;> field_simp

theorem calcLoop_placed (ps ns ss : List H4) (hl : ps.length = ns.length) (hl' : ps.length = ss.length)
    (h : ∀ i (hi : i < ps.length), (ps[i]).w = 1 ∧ ((ns[i]'(hl ▸ hi)).w = 0 ∨ (ns[i]'(hl ▸ hi)).w = 1) ∧
      ((ss[i]'(hl' ▸ hi)).w = 0 ∨ (ss[i]'(hl' ▸ hi)).w = 1) ∧
      TwoDirections (ns[i]'(hl ▸ hi)).xyz (ss[i]'(hl' ▸ hi)).xyz) :
    ∃ ms : List M4, calcLoop ps ns ss = .ok (ms.map some) ∧ ms.length = ps.length ∧
      ∀ i (hi : i < ps.length) (hm : i < ms.length),
        PlacedAs ms[i] (ps[i]).xyz (ns[i]'(hl ▸ hi)).xyz (ss[i]'(hl' ▸ hi)).xyz := by
  induction ps generalizing ns ss with
  | nil => exact ⟨[], by simp [calcLoop], rfl, fun i hi => absurd hi (by simp)⟩
  | cons p ps ih =>
    cases ns with
    | nil => simp at hl
    | cons n ns =>
      cases ss with
      | nil => simp at hl'
      | cons s ss =>
        obtain ⟨h1, h2, h3, h4⟩ := h 0 (by simp)
        obtain ⟨m, e1, e2⟩ := calcOne_placed p n s h1 h2 h3 h4
        obtain ⟨ms, f1, f2, f3⟩ := ih ns ss (by simpa using hl) (by simpa using hl')
          (fun i hi => h (i + 1) (by simpa using hi))
        refine ⟨m :: ms, by simp [calcLoop, e1, f1], by simp [f2], ?_⟩
        intro i hi hm
        cases i with
        | zero => exact e2
        | succ i => exact f3 i (by simpa using hi) (by simpa using hm)

/-- **C98** If normals and parallels are given by functions, every element is placed at its position with its
x axis along its normal and its y axis in the plane of normal and parallel: one element per position, in order. -/
theorem C98_callable (ps ns ss : List H4) (f : List H4 → Except Err (List H4))
    (g : List H4 × List H4 → Except Err (List H4)) (hf : f ps = .ok ns) (hg : g (ps, ns) = .ok ss)
    (hl : ps.length = ns.length) (hl' : ps.length = ss.length)
    (h : ∀ i (hi : i < ps.length), IsPoint ps[i] ∧ IsDir (ns[i]'(hl ▸ hi)) ∧ IsDir (ss[i]'(hl' ▸ hi)) ∧
      TwoDirections (ns[i]'(hl ▸ hi)).xyz (ss[i]'(hl' ▸ hi)).xyz) :
    ∃ ms : List M4, calculateElempos ps (.callable f) (.callable g) = .ok (ms.map some) ∧
      ms.length = ps.length ∧ ∀ i (hi : i < ps.length) (hm : i < ms.length),
        PlacedAs ms[i] (ps[i]).xyz (ns[i]'(hl ▸ hi)).xyz (ss[i]'(hl' ▸ hi)).xyz := by
  obtain ⟨ms, e1, e2⟩ := calcLoop_placed ps ns ss hl hl'
    (fun i hi => ⟨(h i hi).1, .inl (h i hi).2.1, .inl (h i hi).2.2.1, (h i hi).2.2.2⟩)
  exact ⟨ms, by simp [calculateElempos, getSpec, hf, hg, e1], e2⟩

theorem getSpec_arr {α : Type} (s : H4) (hs : s.w = 0 ∨ s.w = 1) (ps : List V3) (arg : α) :
    ∃ ds : List H4, getSpec (.arr [s.x, s.y, s.z, s.w]) (ps.map V3.toPoint) arg = .ok ds ∧
      ds.length = ps.length ∧ ∀ i (hi : i < ps.length) (hd : i < ds.length),
        (ds[i].w = 0 ∨ ds[i].w = 1) ∧ ds[i].xyz = meant s ps[i] := by
  rcases hs with hs | hs
  · refine ⟨List.replicate ps.length s, ?_, by simp, ?_⟩
    · simp only [getSpec, hs, if_true, List.length_map]
      congr 2
      rw [← hs]
    · intro i hi hd
      simp [hs, meant]
  · have h0 : s.w ≠ 0 := by rw [hs]; norm_num
    have e1 : h2e (ps.map V3.toPoint) = .ok ps := by
      rw [h2e_points (by simp [V3.toPoint]), List.map_map]
      congr 1
      conv_rhs => rw [← List.map_id ps]
      rfl
    have e2 : h2e [⟨s.x, s.y, s.z, s.w⟩] = .ok [s.xyz] := h2e_point hs
    refine ⟨(ps.map fun p => p - s.xyz).map V3.toPoint, ?_, by simp, ?_⟩
    · simp only [getSpec, h0, if_false, e1, e2]
      simp only [e2h]
      rw [if_neg (by norm_num)]
      rfl
    · intro i hi hd
      refine ⟨.inr (by simp [V3.toPoint]), ?_⟩
      simp [meant, hs, V3.toPoint, H4.xyz]
      rfl

/-- **C98** (partial: for points see `C98_towards_false`.) With homogeneous coordinates: a direction is used for all
elements, a point stands for the direction from that point to the element. -/
theorem C98_coordinates_partial (ps : List V3) (n s : H4) (hn : n.w = 0 ∨ n.w = 1) (hs : s.w = 0 ∨ s.w = 1)
    (h : ∀ p ∈ ps, TwoDirections (meant n p) (meant s p)) :
    ∃ ms : List M4, calculateElempos (ps.map V3.toPoint) (.arr [n.x, n.y, n.z, n.w]) (.arr [s.x, s.y, s.z, s.w]) =
        .ok (ms.map some) ∧
      List.Forall₂ (fun p m => PlacedAs m p (meant n p) (meant s p)) ps ms := by
  obtain ⟨ns, h1, h2, h3⟩ := getSpec_arr n hn ps (ps.map V3.toPoint)
  obtain ⟨ss, h4, h5, h6⟩ := getSpec_arr s hs ps (ps.map V3.toPoint, ns)
  obtain ⟨ms, e1, e2, e3⟩ := calcLoop_placed (ps.map V3.toPoint) ns ss (by simp [h2]) (by simp [h5]) (by
    intro i hi
    have hi' : i < ps.length := by simpa using hi
    obtain ⟨k1, k2⟩ := h3 i hi' (h2 ▸ hi')
    obtain ⟨k3, k4⟩ := h6 i hi' (h5 ▸ hi')
    refine ⟨by simp [V3.toPoint], k1, k3, ?_⟩
    rw [k2, k4]
    exact h _ (List.getElem_mem _))
  refine ⟨ms, by simp [calculateElempos, h1, h4, e1], ?_⟩
  rw [List.forall₂_iff_get]
  refine ⟨by simp [e2], fun i hi hm => ?_⟩
  have := e3 i (by simpa using hi) hm
  rw [(h3 i hi (h2 ▸ hi)).2, (h6 i hi (h5 ▸ hi)).2] at this
  simpa [V3.toPoint, H4.xyz] using this

/-- **C98** The documentation says that for a point as `normal_spec` "the normal of all elements will be directed
towards that point". It is the other way round for every element: the x axis points away from the point. -/
theorem C98_towards_false (m : M4) (p side : V3) (n : H4) (hn : n.w = 1) (hp : p ≠ n.xyz)
    (h : PlacedAs m p (meant n p) side) :
    (∃ k : ℝ, 0 < k ∧ (vX m).xyz = k • (p - n.xyz)) ∧ ¬ ∃ k : ℝ, 0 < k ∧ (vX m).xyz = k • (n.xyz - p) := by
  have hm : meant n p = p - n.xyz := by simp [meant, hn]
  obtain ⟨k, hk, hx⟩ := h.x
  rw [hm] at hx
  refine ⟨⟨k, hk, hx⟩, ?_⟩
  rintro ⟨l, hl, hy⟩
  apply hp
  have hd : p - n.xyz = 0 := by
    rw [← V3.dot_self_eq_zero]
    have h1 : (vX m).xyz.dot (p - n.xyz) = k * (p - n.xyz).dot (p - n.xyz) := by rw [hx, V3.dot_smul_left]
    have h2 : (vX m).xyz.dot (p - n.xyz) = -(l * (p - n.xyz).dot (p - n.xyz)) := by
      rw [hy, V3.dot_smul_left]
      simp only [V3.dot, V3.sub_x, V3.sub_y, V3.sub_z]; ring
    have h3 := V3.dot_self_nonneg (p - n.xyz)
    nlinarith
  have e1 := congrArg V3.x hd
  have e2 := congrArg V3.y hd
  have e3 := congrArg V3.z hd
  simp at e1 e2 e3
  ext
  · exact sub_eq_zero.1 e1
  · exact sub_eq_zero.1 e2
  · exact sub_eq_zero.1 e3

/-- **C98** An element whose normal is parallel to its `parallel_spec` cannot be oriented. Then there is a
`ValueError` and no element is made at all. -/
theorem C98_parallel_refused (pre post : List V3) (p : V3) (n s : H4) (hn : n.w = 0 ∨ n.w = 1) (hs : s.w = 0 ∨ s.w = 1)
    (h : ∀ q ∈ pre, TwoDirections (meant n q) (meant s q))
    (h1 : meant n p ≠ 0) (h2 : meant s p ≠ 0) (hpar : Parallel3 (meant n p) (meant s p)) :
    calculateElempos ((pre ++ p :: post).map V3.toPoint) (.arr [n.x, n.y, n.z, n.w])
      (.arr [s.x, s.y, s.z, s.w]) = .error .valueError := by
  set ps := pre ++ p :: post with hps
  obtain ⟨ns, g1, g2, g3⟩ := getSpec_arr n hn ps (ps.map V3.toPoint)
  obtain ⟨ss, g4, g5, g6⟩ := getSpec_arr s hs ps (ps.map V3.toPoint, ns)
  simp only [calculateElempos, g1, g4]
  clear g1 g4
  rw [hps] at g2 g3 g5 g6 ⊢
  clear_value ps
  clear hps
  induction pre generalizing ns ss with
  | nil =>
    cases ns with
    | nil => simp at g2
    | cons a ns =>
      cases ss with
      | nil => simp at g5
      | cons b ss =>
        obtain ⟨k1, k2⟩ := g3 0 (by simp) (by simp)
        obtain ⟨k3, k4⟩ := g6 0 (by simp) (by simp)
        simp at k1 k2 k3 k4
        have en : h2e [a] = .ok [a.xyz] := by rcases k1 with k | k; exacts [h2e_dir k, h2e_point k]
        have es : h2e [b] = .ok [b.xyz] := by rcases k3 with k | k; exacts [h2e_dir k, h2e_point k]
        have hc : calcOne p.toPoint a b = .error .valueError := by
          simp only [calcOne, en, es, k2, k4, C16_ex2vec_parallel _ _ h1 h2 hpar]
        simp [calcLoop, hc]
  | cons q pre ih =>
    cases ns with
    | nil => simp at g2
    | cons a ns =>
      cases ss with
      | nil => simp at g5
      | cons b ss =>
        obtain ⟨k1, k2⟩ := g3 0 (by simp) (by simp)
        obtain ⟨k3, k4⟩ := g6 0 (by simp) (by simp)
        simp at k1 k2 k3 k4
        obtain ⟨m, e1, _⟩ := calcOne_placed q.toPoint a b rfl k1 k3 (by
          rw [k2, k4]; exact h q (by simp))
        have := ih (fun q hq => h q (List.mem_cons_of_mem _ hq)) ns (by simpa using g2)
          (fun i hi hd => g3 (i + 1) (by simpa using hi) (by simpa using hd)) ss (by simpa using g5)
          (fun i hi hd => g6 (i + 1) (by simpa using hi) (by simpa using hd))
        simp only [List.cons_append, List.map_cons, calcLoop, e1, this]

/-- **C98** An array that is no homogeneous coordinate is refused. -/
theorem C98_bad_spec (xyzw : List H4) (l : List ℝ) (hl : l.length ≠ 4) (s : DirSpec (List H4 × List H4)) :
    calculateElempos xyzw (.arr l) s = .error .valueError := by
  have : getSpec (.arr l) xyzw xyzw = .error .valueError := by
    match l, hl with
    | [], _ => rfl
    | [_], _ => rfl
    | [_, _], _ => rfl
    | [_, _, _], _ => rfl
    | [_, _, _, _], h => simp at h
    | _ :: _ :: _ :: _ :: _ :: _, _ => rfl
  simp [calculateElempos, this]

/-- **C98** An element that sits exactly at the point given as `normal_spec` is not refused: it gets a position
matrix with NaN. -/
theorem C98_at_point_nan (p : V3) (s : V3) :
    calculateElempos [p.toPoint] (.arr [p.x, p.y, p.z, 1]) (.arr [s.x, s.y, s.z, 0]) = .ok [none] := by
  obtain ⟨ns, g1, g2, g3⟩ := getSpec_arr (p.toPoint) (.inr rfl) [p] [p.toPoint]
  obtain ⟨ss, g4, g5, g6⟩ := getSpec_arr (s.toDir) (.inl rfl) [p] ([p.toPoint], ns)
  match ns, g2 with
  | [a], _ =>
    match ss, g5 with
    | [b], _ =>
      obtain ⟨k1, k2⟩ := g3 0 (by simp) (by simp)
      obtain ⟨k3, k4⟩ := g6 0 (by simp) (by simp)
      simp at k1 k2 k3 k4
      have en : h2e [a] = .ok [a.xyz] := by rcases k1 with k | k; exacts [h2e_dir k, h2e_point k]
      have es : h2e [b] = .ok [b.xyz] := by rcases k3 with k | k; exacts [h2e_dir k, h2e_point k]
      have ha : a.xyz = 0 := by
        rw [k2]; ext <;> simp [meant, V3.toPoint, H4.xyz]
      have hp : h2e [p.toPoint] = .ok [p] := h2e_point rfl
      have hc : calcOne p.toPoint a b = .ok none := by
        simp [calcOne, en, es, ha, ex2vecFix, hp]
      have g1' : getSpec (.arr [p.x, p.y, p.z, 1]) [p.toPoint] [p.toPoint] = .ok [a] := g1
      have g4' : getSpec (.arr [s.x, s.y, s.z, 0]) [p.toPoint] ([p.toPoint], [a]) = .ok [b] := g4
      simp [calculateElempos, g1', g4', calcLoop, hc]

/-- Two elements, a point as normal and the z axis as side: the hypotheses can be met. -/
example : ∀ p ∈ [(⟨10, 0, 0⟩ : V3), ⟨10, 5, 0⟩],
    TwoDirections (meant ⟨0, 0, 0, 1⟩ p) (meant ⟨0, 0, 1, 0⟩ p) := by
  intro p hp
  have h2 : (⟨0, 0, 1⟩ : V3).unit = ⟨0, 0, 1⟩ := V3.unit_of_unit (by simp [V3.dot])
  have : p.z = 0 ∧ p ≠ 0 := by
    simp at hp
    rcases hp with rfl | rfl <;> refine ⟨rfl, fun h => ?_⟩ <;> have := congrArg V3.x h <;> simp at this
  have e : meant ⟨0, 0, 0, 1⟩ p = p := by ext <;> simp [meant, H4.xyz]
  have e2 : meant ⟨0, 0, 1, 0⟩ p = ⟨0, 0, 1⟩ := by simp [meant, H4.xyz]
  rw [e, e2]
  refine ⟨this.2, fun h => by have := congrArg V3.z h; simp at this, ?_⟩
  have hz : p.unit.z = 0 := by simp [V3.unit, this.1]
  rw [h2]
  rintro (⟨_, _, h⟩ | ⟨_, _, h⟩) <;> simp [isclose, hz] at h <;> norm_num at h

/-! ## C99 -/

theorem calcLoop_short {ps ns ss : List H4} {ms : List (Option M4)} (h : calcLoop ps ns ss = .ok ms) :
    ps.length ≤ ns.length ∧ ps.length ≤ ss.length := by
  induction ps generalizing ns ss ms with
  | nil => simp
  | cons p ps ih =>
    cases ns with
    | nil => simp [calcLoop] at h
    | cons n ns =>
      cases ss with
      | nil => simp [calcLoop] at h
      | cons s ss =>
        simp only [calcLoop] at h
        cases h1 : calcOne p n s with
        | error e => simp [h1] at h
        | ok m =>
          cases h2 : calcLoop ps ns ss with
          | error e => simp [h1, h2] at h
          | ok ms' =>
            have := ih h2
            simp only [List.length_cons]; omega

/-- **C98** A function that returns fewer normals, or fewer parallel directions, than there are elements never leads to a list of
positions; for a single element without normal the error is an `IndexError`. -/
theorem C98_too_few (ps ns ss : List H4) (f : List H4 → Except Err (List H4))
    (g : List H4 × List H4 → Except Err (List H4)) (hf : f ps = .ok ns) (hg : g (ps, ns) = .ok ss)
    (h : ns.length < ps.length ∨ ss.length < ps.length) :
    (∀ ms, calculateElempos ps (.callable f) (.callable g) ≠ .ok ms) ∧
      (ns = [] ∨ ss = [] → calculateElempos ps (.callable f) (.callable g) = .error .indexError) := by
  have e : calculateElempos ps (.callable f) (.callable g) = calcLoop ps ns ss := by
    simp only [calculateElempos, getSpec, hf, hg]
  rw [e]
  refine ⟨fun ms hm => ?_, ?_⟩
  · have := calcLoop_short hm
    omega
  · cases ps with
    | nil => simp at h
    | cons p ps =>
      rintro (rfl | rfl)
      · simp [calcLoop]
      · cases ns <;> simp [calcLoop]

example : ([] : List H4).length < [(⟨1, 2, 3, 1⟩ : H4)].length := by simp

theorem calcLoop_inv {ps ns ss : List H4} {ms : List (Option M4)} (h : calcLoop ps ns ss = .ok ms)
    (hl : ps.length = ns.length) (hl' : ps.length = ss.length) :
    ms.length = ps.length ∧ ∀ i (hi : i < ps.length) (hm : i < ms.length),
      calcOne ps[i] (ns[i]'(hl ▸ hi)) (ss[i]'(hl' ▸ hi)) = .ok ms[i] := by
  induction ps generalizing ns ss ms with
  | nil => simp [calcLoop] at h; subst h; exact ⟨rfl, fun i hi => absurd hi (by simp)⟩
  | cons p ps ih =>
    cases ns with
    | nil => simp at hl
    | cons n ns =>
      cases ss with
      | nil => simp at hl'
      | cons s ss =>
        simp only [calcLoop] at h
        cases h1 : calcOne p n s with
        | error e => simp [h1] at h
        | ok m =>
          cases h2 : calcLoop ps ns ss with
          | error e => simp [h1, h2] at h
          | ok ms' =>
            simp [h1, h2] at h
            subst h
            obtain ⟨k1, k2⟩ := ih h2 (by simpa using hl) (by simpa using hl')
            refine ⟨by simp [k1], fun i hi hm => ?_⟩
            cases i with
            | zero => exact h1
            | succ i => exact k2 i (by simpa using hi) (by simpa using hm)

theorem calcOne_inv {p n s : H4} {m : Option M4} (h : calcOne p n s = .ok m) (hp : p.w = 1) (hn : n.w = 0)
    (hs : s.w = 0) (hn0 : n.xyz ≠ 0) (hs0 : s.xyz ≠ 0) :
    ∃ m', m = some m' ∧ PlacedAs m' p.xyz n.xyz s.xyz := by
  by_cases hc : n.xyz.unit.allclose s.xyz.unit ∨ n.xyz.unit.allclose (-s.xyz.unit)
  · exfalso
    have : ex2vecFix n.xyz s.xyz = .error .valueError := by
      simp only [ex2vecFix, hn0, hs0, or_self, if_false, hc, if_true]
    simp [calcOne, h2e_dir hn, h2e_dir hs, this] at h
  · obtain ⟨m', h1, h2⟩ := calcOne_placed p n s hp (.inl hn) (.inl hs) ⟨hn0, hs0, hc⟩
    rw [h1] at h
    exact ⟨m', (Except.ok.inj h).symm, h2⟩

theorem exists_angles (t : Torus) (ht : Placed t.pos4d) (l : List H4)
    (h : ∀ e ∈ l, IsPoint e ∧ quartic t e.xyz true = .ok 0) :
    ∃ angles : List (ℝ × ℝ), l = angles.map fun a => parametric t a.1 a.2 := by
  induction l with
  | nil => exact ⟨[], rfl⟩
  | cons e l ih =>
    obtain ⟨as, rfl⟩ := ih fun x hx => h x (List.mem_cons_of_mem _ hx)
    obtain ⟨h1, h2⟩ := h e (List.mem_cons_self ..)
    obtain ⟨th, ph, h3⟩ := (C45_surjective t ht e.xyz).1.1 h2
    refine ⟨(th, ph) :: as, ?_⟩
    have : parametric t th ph = e := by
      rw [h3]
      unfold IsPoint at h1
      rw [← h1]
      rfl
    simp [this]

theorem torusInward_eq (t : Torus) (ht : Placed t.pos4d) (hr : 0 < t.r) (hrR : t.r < t.R)
    (angles : List (ℝ × ℝ)) (hc : ∀ a ∈ angles, Real.cos a.1 ≠ 0) :
    torusInward t (angles.map fun a => parametric t a.1 a.2) =
      .ok (angles.map fun a => ⟨-(normalParametric t a.1 a.2).x, -(normalParametric t a.1 a.2).y,
        -(normalParametric t a.1 a.2).z, -(normalParametric t a.1 a.2).w⟩) := by
  have h := C47_normal_partial t ht hr hrR angles hc
  have key : ∀ l : List H4, (l.map some).mapM (m := Option) id = some l := by
    intro l
    induction l with
    | nil => rfl
    | cons a l ih => simp [ih]
  have e : (angles.map fun a => some (normalParametric t a.1 a.2)) =
      (angles.map fun a => normalParametric t a.1 a.2).map some := by simp
  unfold torusInward
  rw [h, e]
  simp only
  rw [key]
  simp only [Option.elim_some, List.map_map]
  rfl

/-- **C99** (partial: no element at the top or bottom of the tube, see `C99_top_false`; torus with a hole that
is moved and rotated only.) Default orientation of elements on a Rowland torus: every element sits on the torus, on the
line parallel to the optical axis through the requested position. Its x axis is the unit normal of the
surface that points into the tube. Its y axis lies in the plane of normal and symmetry axis, its z axis is
perpendicular to the symmetry axis. -/
theorem C99_elements_partial (root : RootFinder) (hroot : FindsRoots root) (t : Torus) (hk : Conformal t.pos4d 1)
    (ht : Placed t.pos4d) (hr : 0 < t.r) (hrR : t.r < t.R) (yz : List (ℝ × ℝ)) (ms : List (Option M4))
    (h : elementsOnTorus root t yz = .ok ms)
    (htop : ∀ l, elemposTorus root t (t.r + t.R) (vX t.pos4d) yz = .ok l → ∀ e ∈ l, ∀ th ph,
      parametric t th ph = e → Real.cos th ≠ 0) :
    List.Forall₂ (fun p m => ∃ m' th ph, m = some m' ∧ center m' = parametric t th ph ∧
      (∃ k : ℝ, center m' = toGlobal t.pos4d ⟨0, p.1, p.2⟩ + k • vX t.pos4d) ∧
      (vX m').xyz = -(normalParametric t th ph).xyz ∧
      PlacedAs m' (parametric t th ph).xyz (-(normalParametric t th ph).xyz) (vY t.pos4d).xyz) yz ms := by
  have hax : mul4 t.pos4d ⟨1, 0, 0, 0⟩ = vX t.pos4d := by
    simp [mul4, vX, col]
  have hsd : mul4 t.pos4d ⟨0, 1, 0, 0⟩ = vY t.pos4d := by
    simp [mul4, vY, col]
  simp only [elementsOnTorus, hax, hsd] at h
  split at h
  · cases h
  rename_i l hl
  have haw : (vX t.pos4d).w = 0 := ht.1.1
  have hsw : (vY t.pos4d).w = 0 := ht.1.2.1
  have hel := C78_elements_on_torus root hroot t ht _ _ haw yz l hl
  have hpts : ∀ e ∈ l, IsPoint e ∧ quartic t e.xyz true = .ok 0 := by
    intro e he
    obtain ⟨i, hi, rfl⟩ := List.getElem_of_mem he
    obtain ⟨hlen, hget⟩ := List.forall₂_iff_get.1 hel
    obtain ⟨h1, h2, _⟩ := hget i (hlen ▸ hi) hi
    exact ⟨h1, h2⟩
  obtain ⟨as, has⟩ := exists_angles t ht l hpts
  have hcos : ∀ a ∈ as, Real.cos a.1 ≠ 0 := by
    intro a ha
    exact htop l hl (parametric t a.1 a.2) (by rw [has]; exact List.mem_map_of_mem ha) a.1 a.2 rfl
  have hin := torusInward_eq t ht hr hrR as hcos
  simp only [calculateElempos, getSpec, hsw, if_true] at h
  rw [has, hin] at h
  simp only [List.length_map] at h
  obtain ⟨hml, hmi⟩ := calcLoop_inv h (by simp) (by simp)
  obtain ⟨hlen, hget⟩ := List.forall₂_iff_get.1 hel
  have hla : l.length = as.length := by rw [has]; simp
  rw [List.forall₂_iff_get]
  refine ⟨by rw [hml, hlen, hla]; simp, fun i hi hm => ?_⟩
  have hil : i < l.length := hlen ▸ hi
  have hia : i < as.length := hla ▸ hil
  have h1 := hmi i (by simpa using hia) hm
  simp only [List.getElem_map, List.getElem_replicate] at h1
  obtain ⟨_, _, ⟨k, hline⟩⟩ := hget i hi hil
  have hli : l[i] = parametric t as[i].1 as[i].2 := by simp [has]
  obtain ⟨_, _, _, _, hnw, hnn⟩ := C47_perpendicular t 1 hk as[i].1 as[i].2
  have hpw : (parametric t as[i].1 as[i].2).w = 1 := affine_w ht.1 _
  have hn1 : (normalParametric t as[i].1 as[i].2).xyz.dot (normalParametric t as[i].1 as[i].2).xyz = 1 := by
    rw [← V3.norm_sq, hnn]; simp
  have hneg : (-(normalParametric t as[i].1 as[i].2).xyz).dot (-(normalParametric t as[i].1 as[i].2).xyz) = 1 := by
    rw [← hn1]; simp only [V3.dot, V3.neg_x, V3.neg_y, V3.neg_z]; ring
  obtain ⟨m', e1, e2⟩ := calcOne_inv h1 hpw (by simp [hnw]) rfl
    (by
      have : (⟨-(normalParametric t as[i].1 as[i].2).x, -(normalParametric t as[i].1 as[i].2).y,
        -(normalParametric t as[i].1 as[i].2).z, -(normalParametric t as[i].1 as[i].2).w⟩ : H4).xyz =
          -(normalParametric t as[i].1 as[i].2).xyz := rfl
      rw [this]
      exact V3.ne_zero_of_unit hneg)
    (by
      have : (⟨(vY t.pos4d).x, (vY t.pos4d).y, (vY t.pos4d).z, 0⟩ : H4).xyz = (vY t.pos4d).xyz := rfl
      rw [this]
      apply V3.ne_zero_of_unit
      rw [hk.yy]; norm_num)
  have e2' : PlacedAs m' (parametric t as[i].1 as[i].2).xyz (-(normalParametric t as[i].1 as[i].2).xyz)
    (vY t.pos4d).xyz := e2
  have hcen : center m' = parametric t as[i].1 as[i].2 := by
    have hx := e2'.pos
    have hw : (center m').w = 1 := e2'.rigid.affine.2.2.2
    have hx1 := congrArg V3.x hx
    have hx2 := congrArg V3.y hx
    have hx3 := congrArg V3.z hx
    ext
    · exact hx1
    · exact hx2
    · exact hx3
    · rw [hw, hpw]
  refine ⟨m', as[i].1, as[i].2, e1, hcen, ⟨k, ?_⟩, ?_, e2'⟩
  · rw [hcen, ← hli]
    exact hline
  · obtain ⟨c, hc0, hc⟩ := e2'.x
    have hxx := e2'.rigid.xx
    rw [hc, V3.dot_smul_smul, hneg] at hxx
    have : c = 1 := by nlinarith
    rw [hc, this]
    ext <;> simp

theorem not_allclose_of_ortho {a b : V3} (ha : a.dot a = 1) (hb : b.dot b = 1) (h : a.dot b = 0) :
    ¬ a.allclose b := by
  rintro ⟨h1, h2, h3⟩
  simp only [V3.dot] at ha hb h
  have hb' : ∀ x : ℝ, x * x ≤ 1 → |x| ≤ 1 := fun x hx => abs_le_one_iff_mul_self_le_one.2 hx
  have b1 := hb' b.x (by nlinarith [mul_self_nonneg b.y, mul_self_nonneg b.z])
  have b2 := hb' b.y (by nlinarith [mul_self_nonneg b.x, mul_self_nonneg b.z])
  have b3 := hb' b.z (by nlinarith [mul_self_nonneg b.y, mul_self_nonneg b.x])
  have key : ∀ u v : ℝ, isclose u v → |v| ≤ 1 → (u - v) ^ 2 ≤ 1 / 100 := by
    intro u v huv hv
    have : |u - v| ≤ 1 / 10 := by
      unfold isclose at huv
      norm_num at huv
      linarith
    rw [← sq_abs]
    nlinarith [abs_nonneg (u - v)]
  have k1 := key _ _ h1 b1
  have k2 := key _ _ h2 b2
  have k3 := key _ _ h3 b3
  nlinarith

theorem twoDirections_of_ortho {a b : V3} (ha : a ≠ 0) (hb : b ≠ 0) (h : a.dot b = 0) : TwoDirections a b := by
  refine ⟨ha, hb, ?_⟩
  have h1 := V3.unit_dot_unit ha
  have h2 := V3.unit_dot_unit hb
  have h3 : a.unit.dot b.unit = 0 := by simp [V3.unit, h]
  rintro (hc | hc)
  · exact not_allclose_of_ortho h1 h2 h3 hc
  · refine not_allclose_of_ortho h1 ?_ ?_ hc
    · rw [← h2]; simp only [V3.dot, V3.neg_x, V3.neg_y, V3.neg_z]; ring
    · rw [← neg_zero, ← h3]; simp only [V3.dot, V3.neg_x, V3.neg_y, V3.neg_z]; ring

/-- **C99** False at the top of the tube: an element there is mounted with its x axis perpendicular to the normal of
the torus. -/
theorem C99_top_false (t : Torus) (ht : Placed t.pos4d) (hk : Conformal t.pos4d 1) (hR : 0 < t.R) (hr : 0 < t.r)
    (ph : ℝ) :
    ∃ m, calculateElempos [parametric t (Real.pi / 2) ph] (.callable (torusInward t))
        (.arr [(vY t.pos4d).x, (vY t.pos4d).y, (vY t.pos4d).z, (vY t.pos4d).w]) = .ok [some m] ∧
      (vX m).xyz.dot (normalParametric t (Real.pi / 2) ph).xyz = 0 ∧
      (normalParametric t (Real.pi / 2) ph).xyz = (vY t.pos4d).xyz := by
  obtain ⟨ph', h1, _⟩ := C46_top_false t ht hR hr ph
  have htop : (normalParametric t (Real.pi / 2) ph).xyz = (vY t.pos4d).xyz := by
    ext <;> simp [normalParametric, mul4, vY, col, H4.xyz]
  set n := normalParametric t 0 ph' with hn
  have hin : torusInward t [parametric t (Real.pi / 2) ph] = .ok [⟨-n.x, -n.y, -n.z, -n.w⟩] := by
    unfold torusInward torusNormal
    rw [h1]
    rfl
  have hsw : (vY t.pos4d).w = 0 := ht.1.2.1
  have hnw : n.w = 0 := affine_w ht.1 _
  have hpw : (parametric t (Real.pi / 2) ph).w = 1 := affine_w ht.1 _
  have hortho : n.xyz.dot (vY t.pos4d).xyz = 0 := by
    rw [← htop, hn, normalParametric, normalParametric, conformal_dot hk rfl rfl]
    simp [H4.xyz, V3.dot]
  have hn1 : n.xyz.dot n.xyz = 1 := by
    rw [← V3.norm_sq, (C47_perpendicular t 1 hk 0 ph').2.2.2.2.2]; simp
  have hneg : (⟨-n.x, -n.y, -n.z, -n.w⟩ : H4).xyz = -n.xyz := rfl
  have hneg1 : (-n.xyz).dot (-n.xyz) = 1 := by
    rw [← hn1]; simp only [V3.dot, V3.neg_x, V3.neg_y, V3.neg_z]; ring
  have hneg2 : (-n.xyz).dot (vY t.pos4d).xyz = 0 := by
    rw [← neg_zero, ← hortho]; simp only [V3.dot, V3.neg_x, V3.neg_y, V3.neg_z]; ring
  obtain ⟨m, e1, e2⟩ := calcOne_placed (parametric t (Real.pi / 2) ph) ⟨-n.x, -n.y, -n.z, -n.w⟩ (vY t.pos4d) hpw
    (.inl (by simp [hnw])) (.inl hsw) (by
      rw [hneg]
      refine twoDirections_of_ortho (V3.ne_zero_of_unit hneg1) (V3.ne_zero_of_unit ?_) hneg2
      rw [hk.yy]; norm_num)
  refine ⟨m, ?_, ?_, htop⟩
  · have : (⟨(vY t.pos4d).x, (vY t.pos4d).y, (vY t.pos4d).z, 0⟩ : H4) = vY t.pos4d := by rw [← hsw]
    simp [calculateElempos, getSpec, hsw, hin, calcLoop, this, e1]
  · obtain ⟨k, _, hx⟩ := e2.x
    rw [hx, hneg, htop, V3.dot_smul_left, hneg2, mul_zero]

/-- A torus for the theorems above, with an element at `y = 1/2`, `z = 0`: the line through it meets the torus in four
points, none of them at the top. -/
example : let t : Torus := ⟨3, 1, 1⟩
    Conformal t.pos4d 1 ∧ Placed t.pos4d ∧ 0 < t.r ∧ t.r < t.R ∧
    (∃ l, elemposTorus idealRoot t (t.r + t.R) (vX t.pos4d) [(1 / 2, 0)] = .ok l) ∧
    ∀ l, elemposTorus idealRoot t (t.r + t.R) (vX t.pos4d) [(1 / 2, 0)] = .ok l → ∀ e ∈ l, ∀ th ph,
      parametric t th ph = e → Real.cos th ≠ 0 := by
  intro t
  have hm : ∀ v : H4, mul4 t.pos4d v = v := mul4_one
  have hpl : Placed t.pos4d := ⟨by simp [Affine, t], by simp [t]⟩
  have hax : (vX t.pos4d) = ⟨1, 0, 0, 0⟩ := by simp [vX, col, t]
  refine ⟨⟨hpl.1, ?_, ?_, ?_, ?_, ?_, ?_⟩, hpl, by norm_num [t], by norm_num [t], ?_, ?_⟩
  iterate 6 simp [vX, vY, vZ, col, H4.xyz, V3.dot, t]
  · rw [C78_ideal t hpl _ _ (by rw [hax])]
    intro p hp
    simp at hp
    subst hp
    refine ⟨3 + Real.cos (Real.pi / 6), ?_⟩
    rw [(C45_surjective t hpl _).1]
    refine ⟨Real.pi / 6, 0, ?_⟩
    rw [parametric, hm, hax, toGlobal, hm]
    simp [parametricLocal, t, H4.xyz]
  · intro l hl e he th ph hth hc
    have h := C78_elements_on_torus idealRoot idealRoot_finds t hpl _ _ (by rw [hax]) _ l hl
    cases h with
    | cons h1 h2 =>
      cases h2
      simp at he
      subst he
      obtain ⟨_, _, k, hk⟩ := h1
      rw [hax, toGlobal, hm, ← hth, parametric, hm] at hk
      have hy := congrArg H4.y hk
      simp [parametricLocal, t] at hy
      have := Real.cos_sq_add_sin_sq th
      rw [hc, hy] at this
      norm_num at this

end Marxs
