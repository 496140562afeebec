import Verif.Spec.ParallelPlane
import Verif.Props.Geometry
import Verif.Props.KeptPaths

/-!
# C166: elements side by side
-/

namespace Marxs
open Classical

theorem rect_onPlane {m : M4} (ho : OrthoAxes m) {x : V3} (h : InRectangle m x) : OnPlane (center m).xyz (vX m).xyz x := by
  obtain ⟨a, b, -, -, rfl⟩ := h
  have h1 := ho.xy
  have h2 := ho.xz
  simp only [V3.dot] at h1 h2
  simp only [OnPlane, V3.dot, V3.sub_x, V3.sub_y, V3.sub_z, V3.add_x, V3.add_y, V3.add_z, V3.smul_x, V3.smul_y, V3.smul_z]
  linear_combination a * h1 + b * h2

/-- Two points of a ray in one plane, if the ray is not parallel to the plane. -/
theorem onPlane_unique {c n p d : V3} {k l : ℝ} (hd : d.dot n ≠ 0) (h1 : OnPlane c n (p + k • d)) (h2 : OnPlane c n (p + l • d)) :
    k = l := by
  have : (k - l) * d.dot n = 0 := by
    simp only [OnPlane, V3.dot, V3.sub_x, V3.sub_y, V3.sub_z, V3.add_x, V3.add_y, V3.add_z, V3.smul_x, V3.smul_y,
      V3.smul_z] at h1 h2 ⊢
    linear_combination h1 - h2
  rcases mul_eq_zero.1 this with h | h
  · linarith
  · exact absurd h hd

/-- What the element does to the position of a photon that hits. -/
theorem step_pos {e : Optic} {m : M4} (he : e.rectangle = some m) {r s : Ray} {d q p : H4} {y z : ℝ}
    (hh : r.hit m = some (d, q, y, z, p)) (h : e.step r = .ok s) : s.pos = some q := by
  cases e <;> simp only [Optic.rectangle, Option.some.injEq, reduceCtorEq] at he <;> subst he <;>
    simp only [Optic.step, hh] at h
  case filter f => split at h <;> cases h; rfl
  case mirror rs rp =>
    split at h
    · cases h; rfl
    · split at h
      · cases h
      · cases h; rfl
      · cases h; rfl
  all_goals cases h; rfl

theorem step_miss {e : Optic} {m : M4} (he : e.rectangle = some m) {r : Ray} (hh : r.hit m = none) : e.step r = .ok r := by
  cases e <;> simp only [Optic.rectangle, Option.some.injEq, reduceCtorEq] at he <;> subst he <;> simp only [Optic.step, hh]

theorem run_misses {es : List Optic} {r : Ray} (h : ∀ e ∈ es, ∃ m, e.rectangle = some m ∧ r.hit m = none) :
    runOptics es r = .ok r := by
  induction es with
  | nil => rfl
  | cons e es ih =>
    obtain ⟨m, h1, h2⟩ := h e (by simp)
    simp only [runOptics, step_miss h1 h2]
    exact ih fun e he => h e (by simp [he])

theorem hit_rect {r : Ray} (hr : r.WellFormed) {m : M4} (hm : Placed m) (ho : OrthoAxes m) {d q p : H4} {y z : ℝ}
    (h : r.hit m = some (d, q, y, z, p)) : r.dir = some d ∧ r.pos = some p ∧ InRectangle m q.xyz ∧
      (∃ k : ℝ, 0 ≤ k ∧ q.xyz = p.xyz + k • d.xyz) ∧ d.xyz.dot (vX m).xyz ≠ 0 := by
  obtain ⟨h1, h2, -⟩ := hit_forward h
  have hi : planeIntersect m d p = some (q, y, z) := by
    simp only [Ray.hit, h1, h2] at h
    split at h
    · rename_i hq
      simp only [Option.some.injEq, Prod.mk.injEq] at h
      obtain ⟨-, rfl, rfl, rfl, -⟩ := h
      exact hq
    · cases h
  obtain ⟨c1, c2⟩ := C10_plane_intersect m hm.1 ho d p (hr.2.1 d h1) (hr.1 p h2)
  obtain ⟨-, c3, c4, -⟩ := c2 q y z hi
  exact ⟨h1, h2, c4, c3, (c1.1 (by rw [hi]; rfl)).1⟩

/-- A photon that has been brought to one rectangle hits no other one in the same plane. -/
theorem no_second_hit {m m' : M4} (hm' : Placed m') (ho : OrthoAxes m) (ho' : OrthoAxes m') (hs : SamePlane m m') (ha : NoCommonPoint m m')
    {s : Ray} (hws : s.WellFormed) {q : H4} (hq : s.pos = some q) (hi : InRectangle m q.xyz) : s.hit m' = none := by
  by_contra hne
  obtain ⟨⟨d', q', y', z', p'⟩, hh⟩ := Option.ne_none_iff_exists'.1 hne
  obtain ⟨e1, e2, e3, ⟨k, -, e4⟩, e5⟩ := hit_rect hws hm' ho' hh
  have : p' = q := by rw [hq] at e2; exact (Option.some.inj e2).symm
  subst this
  have on : OnPlane (center m').xyz (vX m').xyz p'.xyz := (hs _).1 (rect_onPlane ho hi)
  have on' := rect_onPlane ho' e3
  rw [e4] at on'
  have h0 : OnPlane (center m').xyz (vX m').xyz (p'.xyz + (0 : ℝ) • d'.xyz) := by
    have e : p'.xyz + (0 : ℝ) • d'.xyz = p'.xyz := by ext <;> simp
    rw [e]; exact on
  have hk := onPlane_unique e5 on' h0
  subst hk
  have e : p'.xyz + (0 : ℝ) • d'.xyz = p'.xyz := by ext <;> simp
  rw [e] at e4
  rw [e4] at e3
  exact ha _ ⟨hi, e3⟩

/-- A ray hits at most one of two rectangles in the same plane. -/
theorem one_hit {m m' : M4} (hm : Placed m) (hm' : Placed m') (ho : OrthoAxes m) (ho' : OrthoAxes m') (hs : SamePlane m m')
    (ha : NoCommonPoint m m') {r : Ray} (hr : r.WellFormed) (h : r.hit m ≠ none) : r.hit m' = none := by
  by_contra hne
  obtain ⟨⟨d, q, y, z, p⟩, hh⟩ := Option.ne_none_iff_exists'.1 h
  obtain ⟨⟨d', q', y', z', p'⟩, hh'⟩ := Option.ne_none_iff_exists'.1 hne
  obtain ⟨e1, e2, e3, ⟨k, -, e4⟩, e5⟩ := hit_rect hr hm ho hh
  obtain ⟨f1, f2, f3, ⟨l, -, f4⟩, f5⟩ := hit_rect hr hm' ho' hh'
  have hd : d' = d := by rw [e1] at f1; exact (Option.some.inj f1).symm
  have hp : p' = p := by rw [e2] at f2; exact (Option.some.inj f2).symm
  subst hd hp
  have on1 := rect_onPlane ho e3
  rw [e4] at on1
  have on2 := (hs _).2 (rect_onPlane ho' f3)
  rw [f4] at on2
  have := onPlane_unique e5 on1 on2
  subst this
  rw [← e4] at f4
  rw [f4] at f3
  exact ha _ ⟨e3, f3⟩

theorem SideBySide.tail {e : Optic} {es : List Optic} (h : SideBySide (e :: es)) : SideBySide es :=
  ⟨fun e he => h.flat e (by simp [he]), fun e he e' he' => h.plane e (by simp [he]) e' (by simp [he']),
    (List.pairwise_cons.1 h.apart).2⟩

theorem hitCoos_rect {e : Optic} {m : M4} (he : e.rectangle = some m) (r : Ray) : hitCoos e r = none ↔ r.hit m = none := by
  cases e <;> simp only [Optic.rectangle, Option.some.injEq, reduceCtorEq] at he <;> subst he <;>
    simp only [hitCoos, Option.map_eq_none_iff]

/-- **C166** Each photon interacts with at most one of several flat elements side by side in one plane: either it misses all of
them and is not changed, or it hits exactly one, and the result is what this element does to it. -/
theorem C166_one_element (es : List Optic) (hes : SideBySide es) (r : Ray) (hr : r.WellFormed) :
    ((∀ e ∈ es, hitCoos e r = none) ∧ runOptics es r = .ok r) ∨
    ∃ (i : ℕ) (e : Optic), es[i]? = some e ∧ hitCoos e r ≠ none ∧ runOptics es r = e.step r ∧
      ∀ (j : ℕ) (e' : Optic), es[j]? = some e' → j ≠ i → hitCoos e' r = none := by
  induction es with
  | nil => exact .inl ⟨by simp, rfl⟩
  | cons e es ih =>
    obtain ⟨m, hm, hpl, ho⟩ := hes.flat e (by simp)
    by_cases hh : r.hit m = none
    · have hstep := step_miss hm hh
      rcases ih hes.tail with ⟨h1, h2⟩ | ⟨i, e1, h1, h2, h3, h4⟩
      · left
        refine ⟨fun e' he' => ?_, by simp only [runOptics, hstep, h2]⟩
        rcases List.mem_cons.1 he' with rfl | he'
        · exact (hitCoos_rect hm r).2 hh
        · exact h1 e' he'
      · right
        refine ⟨i + 1, e1, by simpa using h1, h2, by simp only [runOptics, hstep, h3], fun j e' hj hne => ?_⟩
        cases j with
        | zero =>
          simp only [List.getElem?_cons_zero, Option.some.injEq] at hj
          subst hj
          exact (hitCoos_rect hm r).2 hh
        | succ j => exact h4 j e' (by simpa using hj) (by omega)
    · right
      have others : ∀ e' ∈ es, ∃ m', e'.rectangle = some m' ∧ Placed m' ∧ OrthoAxes m' ∧ SamePlane m m' ∧ NoCommonPoint m m' := by
        intro e' he'
        obtain ⟨m', hm', hpl', ho'⟩ := hes.flat e' (by simp [he'])
        exact ⟨m', hm', hpl', ho', hes.plane e (by simp) e' (by simp [he']) m m' hm hm',
          (List.pairwise_cons.1 hes.apart).1 e' he' m m' hm hm'⟩
      refine ⟨0, e, rfl, fun h => hh ((hitCoos_rect hm r).1 h), ?_, fun j e' hj hne => ?_⟩
      · simp only [runOptics]
        cases hst : e.step r with
        | error x => rfl
        | ok s =>
          simp only
          obtain ⟨⟨d, q, y, z, p⟩, hq⟩ := Option.ne_none_iff_exists'.1 hh
          have hpos := step_pos hm hq hst
          have hin := (hit_rect hr hpl ho hq).2.2.1
          have hpl2 : e.IsPlaced := by
            cases e <;> simp only [Optic.rectangle, Option.some.injEq, reduceCtorEq] at hm <;> subst hm <;> exact hpl
          have hws := C157_well_formed e hpl2 r s hr hst
          refine run_misses fun e' he' => ?_
          obtain ⟨m', hm', hpl', ho', hs, ha⟩ := others e' he'
          exact ⟨m', hm', no_second_hit hpl' ho ho' hs ha hws hpos hin⟩
      · cases j with
        | zero => exact absurd rfl hne
        | succ j =>
          have he' : e' ∈ es := List.mem_of_getElem? (by simpa using hj)
          obtain ⟨m', hm', hpl', ho', hs, ha⟩ := others e' he'
          exact (hitCoos_rect hm' r).2 (one_hit hpl hpl' ho ho' hs ha hr hh)

theorem SideBySide.perm {es es' : List Optic} (h : SideBySide es) (hp : es.Perm es') : SideBySide es' :=
  ⟨fun e he => h.flat e (hp.symm.subset he), fun e he e' he' => h.plane e (hp.symm.subset he) e' (hp.symm.subset he'),
    hp.pairwise h.apart fun hab m m' h1 h2 x hx => hab m' m h2 h1 x hx.symm⟩

/-- **C166** The order in which elements side by side are listed does not matter. -/
theorem C166_order (es es' : List Optic) (hes : SideBySide es) (hp : es.Perm es') (r : Ray) (hr : r.WellFormed) :
    runOptics es r = runOptics es' r := by
  rcases C166_one_element es hes r hr with ⟨h1, h2⟩ | ⟨i, e, h1, h2, h3, -⟩ <;>
    rcases C166_one_element es' (hes.perm hp) r hr with ⟨k1, k2⟩ | ⟨j, e', k1, k2, k3, k4⟩
  · rw [h2, k2]
  · exact absurd (h1 e' (hp.symm.subset (List.mem_of_getElem? k1))) k2
  · exact absurd (k1 e (hp.subset (List.mem_of_getElem? h1))) h2
  · rw [h3, k3]
    obtain ⟨l, hl⟩ := List.mem_iff_getElem?.1 (hp.subset (List.mem_of_getElem? h1))
    by_cases hlj : l = j
    · subst hlj
      rw [k1] at hl
      cases hl
      rfl
    · exact absurd (k4 l e hl hlj) h2

/-- A square of size two, moved. -/
def square (a b c : ℝ) : M4 := translation2aff ![a, b, c]

theorem squareAxes (a b c : ℝ) : center (square a b c) = ⟨a, b, c, 1⟩ ∧ vX (square a b c) = ⟨1, 0, 0, 0⟩ ∧
    vY (square a b c) = ⟨0, 1, 0, 0⟩ ∧ vZ (square a b c) = ⟨0, 0, 1, 0⟩ := by
  refine ⟨?_, ?_, ?_, ?_⟩ <;> ext <;> simp [square, translation2aff, center, vX, vY, vZ, col]

theorem square_ortho (a b c : ℝ) : Placed (square a b c) ∧ OrthoAxes (square a b c) := by
  obtain ⟨-, e2, e3, e4⟩ := squareAxes a b c
  refine ⟨⟨by simp [Affine, square, translation2aff], ?_⟩, ?_⟩
  · simp [square, translation2aff, Matrix.det_succ_row_zero, Fin.sum_univ_succ]
  · constructor <;> simp [e2, e3, e4, V3.dot, H4.xyz, V3.ext_iff]

theorem square_hit (a b c x y z : ℝ) : planeIntersect (square a b c) ⟨-1, 0, 0, 0⟩ ⟨x, y, z, 1⟩ =
    if a ≤ x ∧ |y - b| ≤ 1 ∧ |z - c| ≤ 1 then some (⟨a, y, z, 1⟩, y - b, z - c) else none := by
  obtain ⟨e1, e2, e3, e4⟩ := squareAxes a b c
  have n : (⟨0, 1, 0, 0⟩ : H4).norm = 1 ∧ (⟨0, 0, 1, 0⟩ : H4).norm = 1 ∧ (⟨1, 0, 0, 0⟩ : H4).norm = 1 := by
    refine ⟨?_, ?_, ?_⟩ <;> simp [H4.norm, H4.dot]
  have u : eX (square a b c) = ⟨1, 0, 0, 0⟩ ∧ eY (square a b c) = ⟨0, 1, 0, 0⟩ ∧ eZ (square a b c) = ⟨0, 0, 1, 0⟩ := by
    refine ⟨?_, ?_, ?_⟩ <;> simp only [eX, eY, eZ, e2, e3, e4, H4.unit, n] <;> ext <;> simp
  obtain ⟨u1, u2, u3⟩ := u
  have k : ((a - x) * 1 + (b - y) * 0 + (c - z) * 0 + (1 - 1) * 0) / (-1 * 1 + 0 * 0 + 0 * 0 + 0 * 0) = x - a := by
    ring
  simp only [planeIntersect, e1, e3, e4, u1, u2, u3, n, H4.dot, H4.sub_x, H4.sub_y, H4.sub_z, H4.sub_w, H4.add_x, H4.add_y, H4.add_z,
    H4.add_w, H4.smul_x, H4.smul_y, H4.smul_z, H4.smul_w, k]
  rw [if_neg (by norm_num)]
  simp only [mul_zero, mul_one, add_zero, zero_add, sub_nonneg]
  congr 1
  simp only [Option.some.injEq, Prod.mk.injEq, and_true]
  ext <;> simp

/-- **C166** If the elements are not in one plane (here: one filter behind another one), a photon may be changed by more than one
of them, and the result depends on the order in which they are listed. -/
theorem C166_behind_false : ∃ (e e' : Optic) (r s s' : Ray), r.WellFormed ∧ e.IsPlaced ∧ e'.IsPlaced ∧
    runOptics [e, e'] r = .ok s ∧ runOptics [e', e] r = .ok s' ∧ r.prob = some 1 ∧ s.prob = some (1 / 4) ∧ s'.prob = some (1 / 2) := by
  have hf : filterValue (fun _ => (1 / 2 : ℝ)) 1 = .ok (1 / 2) := by
    rw [filterValue, if_neg]; norm_num
  refine ⟨.filter (square 1 0 0) fun _ => 1 / 2, .filter (square 0 0 0) fun _ => 1 / 2, axisRay,
    { axisRay with pos := some ⟨0, 1 / 2, 0, 1⟩, prob := some (1 / 4), coos := [(1 / 2, 0), (1 / 2, 0)] },
    { axisRay with pos := some ⟨0, 1 / 2, 0, 1⟩, prob := some (1 / 2), coos := [(1 / 2, 0)] }, axisRay_ok,
    (square_ortho 1 0 0).1, (square_ortho 0 0 0).1, ?_, ?_, rfl, rfl, rfl⟩
  · simp only [runOptics, Optic.step, Ray.hit, axisRay, square_hit, hf]
    norm_num [abs_le, Ray.at, Ray.times, square_hit, hf]
  · simp only [runOptics, Optic.step, Ray.hit, axisRay, square_hit, hf]
    norm_num [abs_le, Ray.at, Ray.times, square_hit, hf]

/-- Two filters and a detector side by side, the photon goes through the second one. -/
example : ∃ es : List Optic, SideBySide es ∧ es.length = 3 ∧ axisRay.WellFormed ∧
    ∃ s, runOptics es axisRay = .ok s ∧ s.prob = some (1 / 2) ∧ s.pos = some ⟨0, 1 / 2, 0, 1⟩ := by
  have hf : filterValue (fun _ => (1 / 2 : ℝ)) 1 = .ok (1 / 2) := by
    rw [filterValue, if_neg]; norm_num
  have pl : ∀ b c b' c', SamePlane (square 0 b c) (square 0 b' c') := by
    intro b c b' c' x
    obtain ⟨e1, e2, -, -⟩ := squareAxes 0 b c
    obtain ⟨f1, f2, -, -⟩ := squareAxes 0 b' c'
    simp [OnPlane, e1, e2, f1, f2, V3.dot, H4.xyz]
  have ap : ∀ b b', b + 3 ≤ b' → NoCommonPoint (square 0 b 0) (square 0 b' 0) := by
    rintro b b' hb x ⟨⟨a, c, h1, -, rfl⟩, a', c', h3, -, h4⟩
    obtain ⟨e1, -, e2, e3⟩ := squareAxes 0 b 0
    obtain ⟨f1, -, f2, f3⟩ := squareAxes 0 b' 0
    have := congrArg V3.y h4
    simp [e1, e2, e3, f1, f2, f3, H4.xyz] at this
    have := abs_le.1 h1
    have := abs_le.1 h3
    linarith
  refine ⟨[.filter (square 0 (-3) 0) fun _ => 1 / 3, .filter (square 0 0 0) fun _ => 1 / 2, .plane (square 0 3 0)],
    ⟨?_, ?_, ?_⟩, rfl, axisRay_ok, ?_⟩
  · intro e he
    simp only [List.mem_cons, List.not_mem_nil, or_false] at he
    rcases he with rfl | rfl | rfl <;> exact ⟨_, rfl, square_ortho _ _ _⟩
  · intro e he e' he' m m' hm hm'
    simp only [List.mem_cons, List.not_mem_nil, or_false] at he he'
    rcases he with rfl | rfl | rfl <;> rcases he' with rfl | rfl | rfl <;> cases hm <;> cases hm' <;> exact pl _ _ _ _
  · simp only [List.pairwise_cons, List.mem_cons, List.not_mem_nil, or_false, forall_eq_or_imp, forall_eq, Optic.rectangle,
      Option.some.injEq]
    refine ⟨⟨?_, ?_⟩, ?_, ?_, ?_⟩
    · rintro m m' rfl rfl; exact ap _ _ (by norm_num)
    · rintro m m' rfl rfl; exact ap _ _ (by norm_num)
    · rintro m m' rfl rfl; exact ap _ _ (by norm_num)
    · simp
    · simp
  · refine ⟨{ axisRay with pos := some ⟨0, 1 / 2, 0, 1⟩, prob := some (1 / 2), coos := [(1 / 2, 0)] }, ?_, rfl, rfl⟩
    simp only [runOptics, Optic.step, Ray.hit, axisRay, square_hit, hf]
    norm_num [abs_le, Ray.at, Ray.times, square_hit, hf]

end Marxs
