import Verif.Spec.Mosaic
import Verif.Props.ParallelPlane

/-!
# C168: one large element or a mosaic of small ones
-/

namespace Marxs
open Classical

theorem vX_eX {m : M4} (ho : OrthoAxes m) (hm : Affine m) (d : V3) : d.dot (vX m).xyz = 0 ↔ d.dot (eX m).xyz = 0 := by
  have e : (eX m).xyz = (vX m).xyz.unit := by rw [eX, unit_xyz _ hm.1]
  rw [e, V3.unit]
  have h : d.dot ((1 / (vX m).xyz.norm) • (vX m).xyz) = (1 / (vX m).xyz.norm) * d.dot (vX m).xyz := by
    simp [V3.dot]; ring
  have hn : (1 / (vX m).xyz.norm) ≠ 0 := by
    have := V3.norm_pos ho.x0
    positivity
  rw [h, mul_eq_zero, or_iff_right hn]

theorem TileKind.rectangle_at (k : TileKind) (m : M4) : (k.at m).rectangle = some m := by cases k <;> rfl

theorem TileKind.placed_at (k : TileKind) {m : M4} (h : Placed m) : (k.at m).IsPlaced := by cases k <;> exact h

/-- Two rays that end on the same plane from the same point. -/
theorem same_point {m : M4} {p d : V3} {k l : ℝ} {x y : V3} (ho : OrthoAxes m) (hd : d.dot (vX m).xyz ≠ 0) (hx : x = p + k • d)
    (hy : y = p + l • d) (h1 : InRectangle m x) (h2 : InRectangle m y) : x = y := by
  have on1 := rect_onPlane ho h1
  have on2 := rect_onPlane ho h2
  rw [hx] at on1
  rw [hy] at on2
  rw [hx, hy, onPlane_unique hd on1 on2]

section
variable {m : M4} {ms : List M4} (hM : Mosaic m ms)
include hM

theorem tile_in {t : M4} (ht : t ∈ ms) {x : V3} (h : InRectangle t x) : InRectangle m x := (hM.cover x).2 ⟨t, ht, h⟩

theorem tile_dir {t : M4} (ht : t ∈ ms) (d : V3) : d.dot (vX t).xyz = 0 ↔ d.dot (vX m).xyz = 0 := by
  obtain ⟨h1, h2, h3, -⟩ := hM.tiles t ht
  rw [vX_eX h2 h1.1, vX_eX hM.full.2 hM.full.1.1, h3]

/-- A tile is hit only if the full element is hit, at the same point. -/
theorem tile_hit {t : M4} (ht : t ∈ ms) {r : Ray} (hr : r.WellFormed) {d q p : H4} {y z : ℝ} (h : r.hit t = some (d, q, y, z, p)) :
    ∃ y' z', r.hit m = some (d, q, y', z', p) := by
  obtain ⟨h1, h2, -⟩ := hM.tiles t ht
  obtain ⟨e1, e2, e3, ⟨k, hk, e4⟩, e5⟩ := hit_rect hr h1 h2 h
  have hin := tile_in hM ht e3
  have hd : d.xyz.dot (vX m).xyz ≠ 0 := fun hh => e5 ((tile_dir hM ht _).2 hh)
  have hsome := ((C10_plane_intersect m hM.full.1.1 hM.full.2 d p (hr.2.1 d e1) (hr.1 p e2)).1).2 ⟨hd, k, hk, by rw [← e4]; exact hin⟩
  obtain ⟨⟨q', y', z'⟩, hq⟩ := Option.isSome_iff_exists.1 hsome
  have hh : r.hit m = some (d, q', y', z', p) := by simp only [Ray.hit, e1, e2, hq]
  obtain ⟨-, -, f3, ⟨l, -, f4⟩, -⟩ := hit_rect hr hM.full.1 hM.full.2 hh
  have hqq : q'.xyz = q.xyz := same_point hM.full.2 hd f4 e4 f3 hin
  have w1 : q'.w = 1 := (hit_spec hr hh).2.1
  have w2 : q.w = 1 := (hit_spec hr h).2.1
  have : q' = q := by
    ext
    · exact congrArg V3.x hqq
    · exact congrArg V3.y hqq
    · exact congrArg V3.z hqq
    · rw [w1, w2]
  subst this
  exact ⟨y', z', hh⟩

/-- If the full element is hit, the tile at this place is hit at the same point. -/
theorem full_hit {t : M4} (ht : t ∈ ms) {r : Ray} (hr : r.WellFormed) {d q p : H4} {y z : ℝ} (h : r.hit m = some (d, q, y, z, p))
    (hin : InRectangle t q.xyz) : ∃ y' z', r.hit t = some (d, q, y', z', p) := by
  obtain ⟨h1, h2, -⟩ := hM.tiles t ht
  obtain ⟨e1, e2, e3, ⟨k, hk, e4⟩, e5⟩ := hit_rect hr hM.full.1 hM.full.2 h
  have hd : d.xyz.dot (vX t).xyz ≠ 0 := fun hh => e5 ((tile_dir hM ht _).1 hh)
  have hsome := ((C10_plane_intersect t h1.1 h2 d p (hr.2.1 d e1) (hr.1 p e2)).1).2 ⟨hd, k, hk, by rw [← e4]; exact hin⟩
  obtain ⟨⟨q', y', z'⟩, hq⟩ := Option.isSome_iff_exists.1 hsome
  have hh : r.hit t = some (d, q', y', z', p) := by simp only [Ray.hit, e1, e2, hq]
  obtain ⟨a, b, hab⟩ := tile_hit hM ht hr hh
  rw [h] at hab
  cases hab
  exact ⟨y', z', hh⟩

/-- A photon on the surface of the full element hits only the tile on which it is. -/
theorem tile_after {t : M4} (ht : t ∈ ms) {s : Ray} (hs : s.WellFormed) {q : H4} (hq : s.pos = some q) (hin : InRectangle m q.xyz)
    (hout : ¬ InRectangle t q.xyz) : s.hit t = none := by
  by_contra hne
  obtain ⟨⟨d', q', y', z', p'⟩, hh⟩ := Option.ne_none_iff_exists'.1 hne
  obtain ⟨h1, h2, -⟩ := hM.tiles t ht
  obtain ⟨e1, e2, e3, ⟨k, -, e4⟩, e5⟩ := hit_rect hs h1 h2 hh
  have : p' = q := by rw [hq] at e2; exact (Option.some.inj e2).symm
  subst this
  have hd : d'.xyz.dot (vX m).xyz ≠ 0 := fun hh => e5 ((tile_dir hM ht _).2 hh)
  have e0 : p'.xyz = p'.xyz + (0 : ℝ) • d'.xyz := by ext <;> simp
  have := same_point hM.full.2 hd e4 e0 (tile_in hM ht e3) hin
  rw [this] at e3
  exact hout e3

/-- The tile does the same as the full element. -/
theorem tile_step (k : TileKind) {t : M4} (ht : t ∈ ms) {r : Ray} (hr : r.WellFormed) {d q p : H4} {y z y' z' : ℝ}
    (h : r.hit m = some (d, q, y, z, p)) (h' : r.hit t = some (d, q, y', z', p)) :
    ((k.at t).step r).map Ray.noCoos = ((k.at m).step r).map Ray.noCoos := by
  obtain ⟨t1, t2, hx, hy, hz⟩ := hM.tiles t ht
  obtain ⟨m1, m2⟩ := hM.full
  have wd := (hit_spec hr h).1
  cases k with
  | detector => simp only [TileKind.at, Optic.step, h, h']; rfl
  | filter f =>
    simp only [TileKind.at, Optic.step, h, h']
    cases filterValue f r.energy <;> rfl
  | grating transmission cat groove dd blaze order =>
    have e : ∀ pol, (planeGrating t transmission cat groove (fun _ => dd) (fun _ => blaze) order).diffract d pol r.energy (y', z') =
        (planeGrating m transmission cat groove (fun _ => dd) (fun _ => blaze) order).diffract d pol r.energy (y, z) := by
      intro pol
      simp only [Grating.diffract, Grating.frame, planeGrating, planeBases, hx, hy, hz]
      cases normVector d <;> rfl
    have e2 : ∀ pol, ((planeGrating t transmission cat groove (fun _ => dd) (fun _ => blaze) order).process d pol r.energy (y', z')).2 =
        ((planeGrating m transmission cat groove (fun _ => dd) (fun _ => blaze) order).process d pol r.energy (y, z)).2 := by
      intro pol
      simp only [Grating.process, e]
    simp only [TileKind.at, Optic.step, h, h', e, e2]
    rfl
  | mirror rs rp =>
    have em : ∀ v : H4, IsDir v → mirrorDir t v = mirrorDir m v := fun v hv => by
      rw [(C23_specular t t1.1 t2 t1.2 v hv).1, (C23_specular m m1.1 m2 m1.2 v hv).1, hx]
    have eu : mirrorDir t d.unit = mirrorDir m d.unit := em _ (H4.unit_w wd)
    have eb : ∀ pol, brewster t rs rp d pol = brewster m rs rp d pol := by
      intro pol
      simp only [brewster, hx, eu]
    simp only [TileKind.at, Optic.step, h, h', eu, eb]
    cases r.pol with
    | none => rfl
    | some pol =>
      simp only
      cases brewster m rs rp d pol with
      | error e => rfl
      | ok b => cases b <;> rfl

end

theorem run_first (es : List Optic) (i : ℕ) (e : Optic) (he : es[i]? = some e) (r : Ray)
    (h1 : ∀ (j : ℕ) (e' : Optic), j < i → es[j]? = some e' → e'.step r = .ok r)
    (h2 : ∀ s, e.step r = .ok s → ∀ (j : ℕ) (e' : Optic), i < j → es[j]? = some e' → e'.step s = .ok s) :
    runOptics es r = e.step r := by
  induction es generalizing i with
  | nil => simp at he
  | cons e0 es ih =>
    cases i with
    | zero =>
      simp only [List.getElem?_cons_zero, Option.some.injEq] at he
      subst he
      simp only [runOptics]
      cases hs : e0.step r with
      | error x => rfl
      | ok s =>
        simp only
        have h3 := fun (j : ℕ) (e' : Optic) (hj : es[j]? = some e') => h2 s hs (j + 1) e' (by omega) (by simpa using hj)
        clear ih h1 h2 hs
        induction es with
        | nil => rfl
        | cons e1 es ih =>
          simp only [runOptics, h3 0 e1 (by simp)]
          exact ih fun j e' hj => h3 (j + 1) e' (by simpa using hj)
    | succ i =>
      simp only [runOptics, h1 0 e0 (by omega) (by simp)]
      refine ih i (by simpa using he) (fun j e' hj he' => h1 (j + 1) e' (by omega) (by simpa using he')) ?_
      exact fun s hs j e' hj he' => h2 s hs (j + 1) e' (by omega) (by simpa using he')

/-- **C168** A mosaic of tiles does the same to a photon as one large element, unless the photon hits a seam. -/
theorem C168_mosaic (k : TileKind) (m : M4) (ms : List M4) (hM : Mosaic m ms) (r : Ray) (hr : r.WellFormed) (hs : OffSeams ms r) :
    (runOptics (ms.map k.at) r).map Ray.noCoos = ((k.at m).step r).map Ray.noCoos := by
  cases hh : r.hit m with
  | none =>
    rw [step_miss (k.rectangle_at m) hh, run_misses]
    intro e he
    obtain ⟨t, ht, rfl⟩ := List.mem_map.1 he
    refine ⟨t, k.rectangle_at t, ?_⟩
    by_contra hne
    obtain ⟨⟨d, q, y, z, p⟩, h⟩ := Option.ne_none_iff_exists'.1 hne
    obtain ⟨a, b, hab⟩ := tile_hit hM ht hr h
    rw [hh] at hab
    cases hab
  | some x =>
    obtain ⟨d, q, y, z, p⟩ := x
    obtain ⟨e1, e2, e3, ⟨l, hl, e4⟩, e5⟩ := hit_rect hr hM.full.1 hM.full.2 hh
    obtain ⟨t, ht, hin⟩ := (hM.cover _).1 e3
    obtain ⟨i, hi⟩ := List.mem_iff_getElem?.1 ht
    obtain ⟨y', z', h'⟩ := full_hit hM ht hr hh hin
    have only : ∀ (j : ℕ) (t' : M4), ms[j]? = some t' → j ≠ i → ¬ InRectangle t' q.xyz := by
      intro j t' hj hne hin'
      rw [e4] at hin hin'
      exact hne (hs p d l e2 e1 hl j i t' t hj hi hin' hin)
    rw [← tile_step hM k ht hr hh h', run_first (ms.map k.at) i (k.at t) (by simp [hi]) r]
    · intro j e' hj he'
      simp only [List.getElem?_map, Option.map_eq_some_iff] at he'
      obtain ⟨t', ht', rfl⟩ := he'
      refine step_miss (k.rectangle_at t') ?_
      by_contra hne
      obtain ⟨⟨d2, q2, y2, z2, p2⟩, h2⟩ := Option.ne_none_iff_exists'.1 hne
      have hmem := List.mem_of_getElem? ht'
      obtain ⟨a, b, hab⟩ := tile_hit hM hmem hr h2
      rw [hh] at hab
      cases hab
      obtain ⟨h1', h2', -⟩ := hM.tiles t' hmem
      exact only j t' ht' (by omega) (hit_rect hr h1' h2' h2).2.2.1
    · intro s hst j e' hj he'
      simp only [List.getElem?_map, Option.map_eq_some_iff] at he'
      obtain ⟨t', ht', rfl⟩ := he'
      refine step_miss (k.rectangle_at t') ?_
      have hmem := List.mem_of_getElem? ht'
      exact tile_after hM hmem (C157_well_formed _ (k.placed_at (hM.tiles t ht).1) r s hr hst) (step_pos (k.rectangle_at t) h' hst) e3
        (only j t' ht' (by omega))

/-- A rectangle of two by four. -/
def oblong : M4 := !![1, 0, 0, 0; 0, 2, 0, 0; 0, 0, 1, 0; 0, 0, 0, 1]

theorem oblongAxes : center oblong = ⟨0, 0, 0, 1⟩ ∧ vX oblong = ⟨1, 0, 0, 0⟩ ∧ vY oblong = ⟨0, 2, 0, 0⟩ ∧
    vZ oblong = ⟨0, 0, 1, 0⟩ := by
  refine ⟨?_, ?_, ?_, ?_⟩ <;> ext <;> simp [oblong, center, vX, vY, vZ, col]

theorem oblong_units : eX oblong = ⟨1, 0, 0, 0⟩ ∧ eY oblong = ⟨0, 1, 0, 0⟩ ∧ eZ oblong = ⟨0, 0, 1, 0⟩ ∧ (vY oblong).norm = 2 ∧
    (vZ oblong).norm = 1 := by
  obtain ⟨-, e2, e3, e4⟩ := oblongAxes
  have n1 : (⟨1, 0, 0, 0⟩ : H4).norm = 1 ∧ (⟨0, 0, 1, 0⟩ : H4).norm = 1 := by
    refine ⟨?_, ?_⟩ <;> simp [H4.norm, H4.dot]
  have n2 : (⟨0, 2, 0, 0⟩ : H4).norm = 2 := by
    rw [H4.norm, show (⟨0, 2, 0, 0⟩ : H4).dot ⟨0, 2, 0, 0⟩ = 2 ^ 2 by norm_num [H4.dot], Real.sqrt_sq (by norm_num)]
  refine ⟨?_, ?_, ?_, by rw [e3, n2], by rw [e4, n1.2]⟩ <;> simp only [eX, eY, eZ, e2, e3, e4, H4.unit, n1, n2] <;> ext <;> simp

theorem square_units (a b c : ℝ) : eX (square a b c) = ⟨1, 0, 0, 0⟩ ∧ eY (square a b c) = ⟨0, 1, 0, 0⟩ ∧
    eZ (square a b c) = ⟨0, 0, 1, 0⟩ := by
  obtain ⟨-, e2, e3, e4⟩ := squareAxes a b c
  refine ⟨?_, ?_, ?_⟩ <;> simp only [eX, eY, eZ, e2, e3, e4, H4.unit, H4.norm, H4.dot] <;> ext <;> simp

theorem square_rect (a b c : ℝ) (x : V3) : InRectangle (square a b c) x ↔ x.x = a ∧ |x.y - b| ≤ 1 ∧ |x.z - c| ≤ 1 := by
  obtain ⟨e1, e2, e3, e4⟩ := squareAxes a b c
  simp only [InRectangle, e1, e3, e4]
  constructor
  · rintro ⟨s, t, hs, ht, rfl⟩
    simpa [H4.xyz] using ⟨hs, ht⟩
  · rintro ⟨h1, h2, h3⟩
    refine ⟨x.y - b, x.z - c, h2, h3, ?_⟩
    ext <;> simp [H4.xyz, h1]

theorem oblong_rect (x : V3) : InRectangle oblong x ↔ x.x = 0 ∧ |x.y| ≤ 2 ∧ |x.z| ≤ 1 := by
  obtain ⟨e1, e2, e3, e4⟩ := oblongAxes
  simp only [InRectangle, e1, e3, e4]
  constructor
  · rintro ⟨s, t, hs, ht, rfl⟩
    simp only [H4.xyz, V3.add_x, V3.add_y, V3.add_z, V3.smul_x, V3.smul_y, V3.smul_z]
    have hs := abs_le.1 hs
    have ht := abs_le.1 ht
    refine ⟨by ring, abs_le.2 ⟨by linarith, by linarith⟩, abs_le.2 ⟨by linarith, by linarith⟩⟩
  · rintro ⟨h1, h2, h3⟩
    refine ⟨x.y / 2, x.z, ?_, h3, ?_⟩
    · rw [abs_le] at *; constructor <;> linarith
    · ext <;> simp [H4.xyz, h1]

/-- A rectangle made of two squares. -/
theorem oblong_mosaic : Mosaic oblong [square 0 (-1) 0, square 0 1 0] := by
  refine ⟨⟨⟨by simp [Affine, oblong], ?_⟩, ?_⟩, ?_, ?_⟩
  · simp [oblong, Matrix.det_succ_row_zero, Fin.sum_univ_succ]
  · obtain ⟨-, e2, e3, e4⟩ := oblongAxes
    constructor <;> simp [e2, e3, e4, V3.dot, H4.xyz, V3.ext_iff]
  · obtain ⟨o1, o2, o3, -⟩ := oblong_units
    intro t ht
    simp only [List.mem_cons, List.not_mem_nil, or_false] at ht
    rcases ht with rfl | rfl
    · obtain ⟨s1, s2, s3⟩ := square_units 0 (-1) 0
      exact ⟨(square_ortho _ _ _).1, (square_ortho _ _ _).2, by rw [s1, o1], by rw [s2, o2], by rw [s3, o3]⟩
    · obtain ⟨s1, s2, s3⟩ := square_units 0 1 0
      exact ⟨(square_ortho _ _ _).1, (square_ortho _ _ _).2, by rw [s1, o1], by rw [s2, o2], by rw [s3, o3]⟩
  · intro x
    simp only [List.mem_cons, List.not_mem_nil, or_false, exists_eq_or_imp, exists_eq_left, square_rect, oblong_rect, abs_le, sub_zero]
    constructor
    · rintro ⟨h1, ⟨h2, h3⟩, h4⟩
      rcases le_total x.y 0 with h | h
      · exact Or.inl ⟨h1, ⟨by linarith, by linarith⟩, h4⟩
      · exact Or.inr ⟨h1, ⟨by linarith, by linarith⟩, h4⟩
    · rintro (⟨h1, ⟨h2, h3⟩, h4⟩ | ⟨h1, ⟨h2, h3⟩, h4⟩)
      · exact ⟨h1, ⟨by linarith, by linarith⟩, h4⟩
      · exact ⟨h1, ⟨by linarith, by linarith⟩, h4⟩

/-- A photon that goes through the second square. -/
example : OffSeams [square 0 (-1) 0, square 0 1 0] axisRay ∧ axisRay.WellFormed ∧
    ∃ s, runOptics ([square 0 (-1) 0, square 0 1 0].map (TileKind.filter fun _ => 1 / 2).at) axisRay = .ok s ∧ s.prob = some (1 / 2) := by
  have hf : filterValue (fun _ => (1 / 2 : ℝ)) 1 = .ok (1 / 2) := by
    rw [filterValue, if_neg]; norm_num
  refine ⟨?_, axisRay_ok, { axisRay with pos := some ⟨0, 1 / 2, 0, 1⟩, prob := some (1 / 2), coos := [(-(1 / 2), 0)] }, ?_, rfl⟩
  · intro p d k hp hd hk i j t t' hi hj h1 h2
    cases hp
    cases hd
    have no : ¬ InRectangle (square 0 (-1) 0) ((⟨2, 1 / 2, 0, 1⟩ : H4).xyz + k • (⟨-1, 0, 0, 0⟩ : H4).xyz) := by
      rw [square_rect]
      norm_num [H4.xyz, abs_le]
    match i, hi, j, hj with
    | 0, hi, _, _ => cases hi; exact absurd h1 no
    | _, _, 0, hj => cases hj; exact absurd h2 no
    | 1, _, 1, _ => rfl
    | i + 2, hi, _, _ => simp at hi
    | _, _, j + 2, hj => simp at hj
  · simp only [List.map_cons, List.map_nil, TileKind.at, runOptics, Optic.step, Ray.hit, axisRay, square_hit, hf]
    norm_num [abs_le, Ray.at, Ray.times, square_hit, hf]

/-- **C168** A photon that hits the seam exactly is seen by both tiles: two tiles of a filter absorb it twice. -/
theorem C168_seam_false : ∃ (k : TileKind) (m : M4) (ms : List M4) (r s s' : Ray), Mosaic m ms ∧ r.WellFormed ∧
    (k.at m).step r = .ok s ∧ runOptics (ms.map k.at) r = .ok s' ∧ s.prob = some (1 / 2) ∧ s'.prob = some (1 / 4) := by
  have hf : filterValue (fun _ => (1 / 2 : ℝ)) 1 = .ok (1 / 2) := by
    rw [filterValue, if_neg]; norm_num
  obtain ⟨o1, o2, o3, o4, o5⟩ := oblong_units
  refine ⟨.filter fun _ => 1 / 2, oblong, [square 0 (-1) 0, square 0 1 0], { axisRay with pos := some ⟨2, 0, 0, 1⟩ },
    { axisRay with pos := some ⟨0, 0, 0, 1⟩, prob := some (1 / 2), coos := [(0, 0)] },
    { axisRay with pos := some ⟨0, 0, 0, 1⟩, prob := some (1 / 4), coos := [(1, 0), (-1, 0)] },
    oblong_mosaic, ?_, ?_, ?_, rfl, rfl⟩
  · refine ⟨fun p hp => ?_, fun p hp => ?_, fun p hp => ?_⟩ <;> cases hp <;> rfl
  · have hh : planeIntersect oblong ⟨-1, 0, 0, 0⟩ ⟨2, 0, 0, 1⟩ = some (⟨0, 0, 0, 1⟩, 0, 0) := by
      simp only [planeIntersect, o1, o2, o3, o4, o5, oblongAxes.1]
      norm_num [H4.dot]
      ext <;> norm_num
    simp only [TileKind.at, Optic.step, Ray.hit, axisRay, hh, hf]
    norm_num [Ray.at, Ray.times]
  · simp only [List.map_cons, List.map_nil, TileKind.at, runOptics, Optic.step, Ray.hit, axisRay, square_hit, hf]
    norm_num [abs_le, Ray.at, Ray.times, square_hit, hf]

end Marxs
