import Verif.Spec.Spo
import Verif.Spec.ArcusCamera
import Verif.Props.Optics
import Verif.Props.Boom
import Verif.Props.MechGratings

/-!
# Properties C126 and C127: mirrors and apertures made of SPOs
-/

namespace Marxs
open Matrix Classical

/-- Rotation part of the placement of an SPO. -/
noncomputable def spoRot (a : ℝ) : M3 := !![0, Real.cos a, Real.sin a; 0, -Real.sin a, Real.cos a; 1, 0, 0]

theorem spoRot_rot (a : ℝ) : IsRotation (spoRot a) := by
  have h := Real.cos_sq_add_sin_sq a
  refine ⟨?_, ?_⟩
  · ext i j; fin_cases i <;> fin_cases j <;> simp [spoRot, Matrix.mul_apply, Fin.sum_univ_succ] <;> linarith
  · simp [spoRot, Matrix.det_fin_three]; linarith

theorem spoPos4d_eq (g : SpoRow) : spoPos4d g = compose ![g.rMid * Real.sin g.clocking, g.rMid * Real.cos g.clocking, 0] (spoRot g.clocking)
    ![g.primaryLength, g.azwidth / 2, 18 * g.plateHeight] := by
  ext i j
  fin_cases i <;> fin_cases j <;>
    simp [spoPos4d, xyz2zxy, compose, spoRot, euler2mat, euX, euY, euZ, Matrix.mul_apply, Fin.sum_univ_succ] <;>
    first | ring1 | (left; ring1)

theorem euZ_pi : euZ Real.pi = !![-1, 0, 0; 0, -1, 0; 0, 0, 1] := by
  ext i j; fin_cases i <;> fin_cases j <;> simp [euZ]

theorem pop_none {kw : Kwargs} {k : String} (h : kw.get? k = none) : kw.pop k = kw := by
  rw [Kwargs.pop, List.filter_eq_self]
  intro e he
  simp only [Kwargs.get?, Option.map_eq_none_iff, List.find?_eq_none] at h
  simpa using h e he

theorem parse_plain' (kw : Kwargs) (h1 : kw.get? "pos4d" = none) (h2 : kw.get? "zoom" = none)
    (h3 : kw.get? "position" = none) (h4 : kw.get? "orientation" = none) : parsePosition kw = .ok (1, kw) := by
  rw [parse_plain kw h1 h2 h3 h4, pop_none h1, pop_none h3, pop_none h4, pop_none h2]

/-- The container of the SPOs. -/
noncomputable def spoPar (rows : List SpoRow) (m : M4) (refl : ℕ) (off : ℤ) (name : String) : Par :=
  ⟨m, 1, rows.map spoPos4d, List.replicate rows.length 1,
      [("d_center_optical_axis", .list (rows.map fun g => .num g.rMid)), ("focallength", .list (rows.map fun g => .num g.focal)),
       ("reflectivity_interpolator", .obj refl), ("id_col", .str "xou")], off, name⟩

theorem spo_genOne (rows : List SpoRow) (m : M4) (refl : ℕ) (off : ℤ) (name : String) (k : ℕ) (g : SpoRow) (hg : rows[k]? = some g)
    (hgok : g.Ok) : genOne decompose44 (spoPar rows m refl off name) k =
      .ok ⟨m * spoPos4d g, off + k, [("d_center_optical_axis", .num g.rMid), ("focallength", .num g.focal),
       ("reflectivity_interpolator", .obj refl), ("id_col", .str "xou"), ("name", .str ("Elem " ++ toString k ++ " in " ++ name))]⟩ := by
  have hk : k < rows.length := (List.getElem?_eq_some_iff.1 hg).1
  have hq := genOne_recomposes (c := spoPar rows m refl off name) (i := k) (p := spoPos4d g)
    [("d_center_optical_axis", .num g.rMid), ("focallength", .num g.focal),
       ("reflectivity_interpolator", .obj refl), ("id_col", .str "xou"), ("name", .str ("Elem " ++ toString k ++ " in " ++ name))] ?_ ?_ ?_ ?_
  · rw [hq]; simp only [spoPar, Matrix.mul_one]
  · have he : addName k (spoPar rows m refl off name).name (specificArgs (spoPar rows m refl off name).elemPos.length k
        (spoPar rows m refl off name).elemArgs) = [("d_center_optical_axis", .num g.rMid), ("focallength", .num g.focal),
        ("reflectivity_interpolator", .obj refl), ("id_col", .str "xou"), ("name", .str ("Elem " ++ toString k ++ " in " ++ name))] := by
      simp [spoPar, addName, specificArgs, Kwargs.get?, List.getElem?_map, hg]
    rw [he]
    exact parse_plain' _ (by simp [Kwargs.get?]) (by simp [Kwargs.get?]) (by simp [Kwargs.get?]) (by simp [Kwargs.get?])
  · simp [spoPar, hk]
  · simp [spoPar, hg]
  · rw [spoPos4d_eq]
    refine recomposes_orth _ _ _ (spoRot_rot _).1 ?_
    intro i
    have := hgok.az_pos; have := hgok.plate_pos; have := hgok.length_pos
    fin_cases i <;> simp <;> positivity

/-- **C126** (placement): the mirror of a channel has one SPO per row of the table, in the order of the table and numbered from
the offset of the channel, at the radius and clocking angle of its row around the optical axis of the channel; each knows the
focal length of its row and its distance to the optical axis. -/
theorem C126_placement (rows : List SpoRow) (hok : ∀ g ∈ rows, g.Ok) (refl : ℕ) (optAx : List (String × V3)) (offsets : List (String × ℤ))
    (chan name : String) (p : V3) (off : ℤ) (hp : optAx.lookup chan = some p) (hoff : offsets.lookup chan = some off) :
    ∃ es, arcusMirror rows refl optAx offsets chan name = .ok es ∧ es.length = rows.length ∧
      ∀ (i : ℕ) (g : SpoRow) (e : GenElem), rows[i]? = some g → es[i]? = some e →
        e.pos4d = spoAt p (chanSign chan) g ∧ e.idNum = off + i ∧
        lensInit e.args = .ok (g.focal, (g.outer + g.inner) / 2) ∧ e.args.get? "reflectivity_interpolator" = some (.obj refl) ∧
        e.args.get? "id_col" = some (.str "xou") := by
  set σ := chanSign chan with hσ
  have hrot : (if '1' ∈ chan.toList then (1 : M3) else euZ Real.pi) = !![σ, 0, 0; 0, σ, 0; 0, 0, 1] := by
    rw [hσ, chanSign]
    split
    · ext i j; fin_cases i <;> fin_cases j <;> simp
    · exact euZ_pi
  have hσ2 : σ * σ = 1 := by rw [hσ, chanSign]; split <;> norm_num
  have hdet : (compose ![p.x, p.y, p.z + 12000] !![σ, 0, 0; 0, σ, 0; 0, 0, 1] ![1, 1, 1]).det ≠ 0 := by
    rw [det_compose]; simp [Matrix.det_fin_three, hσ2]
  have hpp : parsePosition [("position", .vec [p.x, p.y, p.z + 12000]), ("orientation", .mat3 !![σ, 0, 0; 0, σ, 0; 0, 0, 1])] =
      .ok (compose ![p.x, p.y, p.z + 12000] !![σ, 0, 0; 0, σ, 0; 0, 0, 1] ![1, 1, 1], []) := by
    simp [parsePosition, Kwargs.get?, zoomOf, positionOf, orientationOf, not_le.2 one_pos, hdet, Kwargs.pop]
  set m := compose ![p.x, p.y, p.z + 12000] !![σ, 0, 0; 0, σ, 0; 0, 0, 1] ![1, 1, 1] with hm
  obtain ⟨es, h1, h2, h3⟩ := genFrom_exists (dec := decompose44) (c := spoPar rows m refl off name)
    (fun k e => ∃ g, rows[k]? = some g ∧ e = ⟨m * spoPos4d g, off + k, [("d_center_optical_axis", .num g.rMid), ("focallength", .num g.focal),
       ("reflectivity_interpolator", .obj refl), ("id_col", .str "xou"), ("name", .str ("Elem " ++ toString k ++ " in " ++ name))]⟩) 0 rows.length (by
      intro k hk
      rw [zero_add]
      obtain ⟨g, hg⟩ : ∃ g, rows[k]? = some g := ⟨_, List.getElem?_eq_getElem hk⟩
      exact ⟨_, spo_genOne rows m refl off name k g hg (hok g (List.mem_of_getElem? hg)), g, hg, rfl⟩)
  refine ⟨es, ?_, h2, ?_⟩
  · simp only [arcusMirror, hp, hoff, spoChannelMirror, hrot, hpp]
    have : generateElements decompose44 (spoPar rows m refl off name) = .ok es := by
      simp only [generateElements, spoPar, List.length_map]; exact h1
    exact this
  · intro i g e hg he
    obtain ⟨g', hg', rfl⟩ := h3 i e he
    rw [zero_add] at *
    obtain rfl : g' = g := by rw [hg] at hg'; simpa using hg'.symm
    refine ⟨?_, by simp, by simp [lensInit, Kwargs.get?, SpoRow.rMid], by simp [Kwargs.get?], by simp [Kwargs.get?]⟩
    simp only [spoPos4d_eq, hm]
    ext i j
    fin_cases i <;> fin_cases j <;> simp [compose, spoAt, spoRot, SpoRow.rMid, Matrix.mul_apply, Fin.sum_univ_succ] <;>
      first | done | ring1 | (left; ring1)

theorem spo_axis (p : V3) (σ : ℝ) (hσ : σ * σ = 1) (g : SpoRow) (hg : g.Ok) :
    (center (spoAt p σ g) - ((g.outer + g.inner) / 2) • eZ (spoAt p σ g)).xyz = ⟨p.x, p.y, p.z + 12000⟩ := by
  have hp := hg.plate_pos
  have hn : (vZ (spoAt p σ g)).norm = 18 * g.plateHeight := by
    simp only [H4.norm, vZ, col, spoAt]
    simp [H4.dot]
    rw [show σ * (18 * g.plateHeight * Real.sin g.clocking) * (σ * (18 * g.plateHeight * Real.sin g.clocking)) +
      σ * (18 * g.plateHeight * Real.cos g.clocking) * (σ * (18 * g.plateHeight * Real.cos g.clocking)) = (18 * g.plateHeight) ^ 2 by
      linear_combination (σ * σ * (18 * g.plateHeight) ^ 2) * Real.sin_sq_add_cos_sq g.clocking + (18 * g.plateHeight) ^ 2 * hσ]
    exact Real.sqrt_sq (by positivity)
  have hu : eZ (spoAt p σ g) = ⟨σ * Real.sin g.clocking, σ * Real.cos g.clocking, 0, 0⟩ := by
    simp only [eZ, H4.unit, hn]
    ext <;> simp [vZ, col, spoAt] <;> field_simp
  rw [hu]
  ext <;> simp [center, col, spoAt, H4.xyz] <;> ring

/-- **C126** (focus): all SPOs of a channel have the same optical axis. Photons from one direction that hit SPOs with the same focal
length, wherever they hit, fly through one common point behind the mirror; for photons along the optical axis and a focal
length of 12 m this is the point where the optical axis of the channel is configured to be. -/
theorem C126_focus (rows : List SpoRow) (hok : ∀ g ∈ rows, g.Ok) (refl : ℕ) (optAx : List (String × V3)) (offsets : List (String × ℤ))
    (chan name : String) (p : V3) (es : List GenElem) (hp : optAx.lookup chan = some p)
    (hes : arcusMirror rows refl optAx offsets chan name = .ok es) (e : GenElem) (he : e ∈ es) :
    ∃ g ∈ rows, ∃ f d, lensInit e.args = .ok (f, d) ∧ f = g.focal ∧
      (∀ (rf : ℝ → ℝ → ℝ) (dir pol interpos : H4) (energy : ℝ), dir.xyz ≠ 0 →
        (let F : V3 := ⟨p.x, p.y, p.z + 12000⟩ + g.focal • dir.xyz.unit; interpos.xyz ≠ F →
        ∃ out, perfectLens e.pos4d f d rf dir pol interpos energy = some out ∧ out.dir.xyz.dot out.dir.xyz = 1 ∧
          ∃ t : ℝ, 0 < t ∧ interpos.xyz + t • out.dir.xyz = F)) ∧
      (g.focal = 12000 → (⟨p.x, p.y, p.z + 12000⟩ : V3) + g.focal • (⟨0, 0, -1⟩ : V3).unit = p) := by
  obtain ⟨off, hoff⟩ : ∃ off, offsets.lookup chan = some off := by
    cases h : offsets.lookup chan with
    | none => simp [arcusMirror, hp, h] at hes
    | some off => exact ⟨off, rfl⟩
  obtain ⟨es', h1, h2, h3⟩ := C126_placement rows hok refl optAx offsets chan name p off hp hoff
  rw [hes] at h1
  obtain rfl : es = es' := by simpa using h1
  obtain ⟨i, hi⟩ := List.getElem?_of_mem he
  have hil : i < rows.length := by rw [← h2]; exact (List.getElem?_eq_some_iff.1 hi).1
  obtain ⟨g, hg⟩ : ∃ g, rows[i]? = some g := ⟨_, List.getElem?_eq_getElem hil⟩
  obtain ⟨k1, k2, k3, -, -⟩ := h3 i g e hg hi
  have hgm := List.mem_of_getElem? hg
  have hgok := hok g hgm
  refine ⟨g, hgm, _, _, k3, rfl, ?_, ?_⟩
  · intro rf dir pol interpos energy h0
    have hσ : chanSign chan * chanSign chan = 1 := by rw [chanSign]; split <;> norm_num
    have hax := spo_axis p _ hσ g hgok
    rw [← k1] at hax
    obtain ⟨F, -, hF, hall⟩ := C21_perfect_lens e.pos4d g.focal ((g.outer + g.inner) / 2) rf dir h0 hgok.focal_pos.le
    rw [hax] at hF
    have hF' : F = ⟨p.x, p.y, p.z + 12000⟩ + g.focal • dir.xyz.unit := by
      rw [← hF]; ext <;> simp
    intro F' hne
    obtain ⟨out, o1, -, o2, o3⟩ := hall interpos pol energy (by rw [hF']; exact hne)
    rw [hF'] at o3
    exact ⟨out, o1, o2, o3⟩
  · intro hf
    have : (⟨0, 0, -1⟩ : V3).norm = 1 := by simp [V3.norm, V3.dot]
    rw [hf, V3.unit, this]
    ext <;> simp

/-- **C126** A channel without optical axis in the configuration is refused. -/
theorem C126_refused (rows : List SpoRow) (refl : ℕ) (optAx : List (String × V3)) (offsets : List (String × ℤ)) (chan name : String)
    (hp : optAx.lookup chan = none ∨ offsets.lookup chan = none) : arcusMirror rows refl optAx offsets chan name = .error .keyError := by
  unfold arcusMirror
  rcases hp with h | h
  · rw [h]
  · cases optAx.lookup chan with
    | none => rfl
    | some p => simp only [h]

/-- Example: two SPOs. -/
noncomputable def exSpos : List SpoRow :=
  [⟨300, 320, 0.1, 90, 0.6, 60, 12000⟩, ⟨320, 340, -0.1, 90, 0.6, 60, 12000⟩]

theorem exSpos_ok : ∀ g ∈ exSpos, g.Ok := by
  intro g hg
  simp only [exSpos, List.mem_cons, List.not_mem_nil, or_false] at hg
  rcases hg with rfl | rfl <;> constructor <;> norm_num

example : ∃ es, arcusMirror exSpos 0 [("1", ⟨0, 0, 0⟩), ("2m", ⟨10, 600, 0⟩)] [("1", 0), ("2m", 11000)] "2m" "mirror" = .ok es ∧ es.length = 2 := by
  obtain ⟨es, h, hl, -⟩ := C126_placement exSpos exSpos_ok 0 [("1", ⟨0, 0, 0⟩), ("2m", ⟨10, 600, 0⟩)] [("1", 0), ("2m", 11000)] "2m" "mirror"
    ⟨10, 600, 0⟩ 11000 (by simp [List.lookup]) (by simp [List.lookup])
  exact ⟨es, h, hl⟩

/-! ## Apertures -/

theorem maxR_spec {l : List ℝ} (hl : l ≠ []) : ∃ a, maxR l = .ok a ∧ a ∈ l ∧ ∀ x ∈ l, x ≤ a := by
  cases l with
  | nil => exact absurd rfl hl
  | cons x l =>
    refine ⟨_, rfl, ?_⟩
    clear hl
    induction l generalizing x with
    | nil => simp
    | cons y l ih =>
      obtain ⟨h1, h2⟩ := ih (max x y)
      rw [List.foldl_cons]
      refine ⟨?_, ?_⟩
      · rcases List.mem_cons.1 h1 with h | h
        · rw [h]; rcases max_choice x y with h' | h' <;> rw [h'] <;> simp
        · exact List.mem_cons_of_mem _ (List.mem_cons_of_mem _ h)
      · intro z hz
        have h3 := h2 _ List.mem_cons_self
        rcases List.mem_cons.1 hz with rfl | hz
        · exact (le_max_left _ _).trans h3
        · rcases List.mem_cons.1 hz with rfl | hz
          · exact (le_max_right _ _).trans h3
          · exact h2 z (List.mem_cons_of_mem _ hz)

theorem minR_spec {l : List ℝ} (hl : l ≠ []) : ∃ a, minR l = .ok a ∧ a ∈ l ∧ ∀ x ∈ l, a ≤ x := by
  cases l with
  | nil => exact absurd rfl hl
  | cons x l =>
    refine ⟨_, rfl, ?_⟩
    clear hl
    induction l generalizing x with
    | nil => simp
    | cons y l ih =>
      obtain ⟨h1, h2⟩ := ih (min x y)
      rw [List.foldl_cons]
      refine ⟨?_, ?_⟩
      · rcases List.mem_cons.1 h1 with h | h
        · rw [h]; rcases min_choice x y with h' | h' <;> rw [h'] <;> simp
        · exact List.mem_cons_of_mem _ (List.mem_cons_of_mem _ h)
      · intro z hz
        have h3 := h2 _ List.mem_cons_self
        rcases List.mem_cons.1 hz with rfl | hz
        · exact h3.trans (min_le_left _ _)
        · rcases List.mem_cons.1 hz with rfl | hz
          · exact h3.trans (min_le_right _ _)
          · exact h2 z (List.mem_cons_of_mem _ hz)

/-- All numbers that are used for the apertures. -/
theorem cover_spec (rows : List SpoRow) (hne : rows ≠ []) (azs rs : ℝ) :
    ∃ xa xb ya yb da dr, IsGreatest {x | ∃ g ∈ rows, x = g.rMid * Real.sin g.clocking} xa ∧ IsLeast {x | ∃ g ∈ rows, x = g.rMid * Real.sin g.clocking} xb ∧
      IsGreatest {y | ∃ g ∈ rows, y = g.rMid * Real.cos g.clocking} ya ∧ IsLeast {y | ∃ g ∈ rows, y = g.rMid * Real.cos g.clocking} yb ∧
      IsGreatest {d | ∃ g ∈ rows, d = g.azwidth} da ∧ IsGreatest {d | ∃ g ∈ rows, d = g.outer - g.inner} dr ∧
      rmidSpo (rows.map spoPos4d) = .ok (1 / 2 * (ya + yb)) ∧
      zoomCover (rows.map spoPos4d) rows azs rs = .ok (1, xa - 1 / 2 * (xa + xb) + azs * da, ya - 1 / 2 * (ya + yb) + rs * dr) := by
  have e0 : (rows.map spoPos4d).map (fun m => m 0 3) = rows.map fun g => g.rMid * Real.sin g.clocking := by
    rw [List.map_map]; refine List.map_congr_left fun g _ => ?_
    simp [spoPos4d_eq, compose]
  have e1 : (rows.map spoPos4d).map (fun m => m 1 3) = rows.map fun g => g.rMid * Real.cos g.clocking := by
    rw [List.map_map]; refine List.map_congr_left fun g _ => ?_
    simp [spoPos4d_eq, compose]
  have hG : ∀ (f : SpoRow → ℝ) a, a ∈ rows.map f → (∀ x ∈ rows.map f, x ≤ a) → IsGreatest {x | ∃ g ∈ rows, x = f g} a := by
    intro f a h1 h2
    obtain ⟨g, hg, rfl⟩ := List.mem_map.1 h1
    exact ⟨⟨g, hg, rfl⟩, by rintro x ⟨g', hg', rfl⟩; exact h2 _ (List.mem_map_of_mem hg')⟩
  have hL : ∀ (f : SpoRow → ℝ) a, a ∈ rows.map f → (∀ x ∈ rows.map f, a ≤ x) → IsLeast {x | ∃ g ∈ rows, x = f g} a := by
    intro f a h1 h2
    obtain ⟨g, hg, rfl⟩ := List.mem_map.1 h1
    exact ⟨⟨g, hg, rfl⟩, by rintro x ⟨g', hg', rfl⟩; exact h2 _ (List.mem_map_of_mem hg')⟩
  have hm : ∀ f : SpoRow → ℝ, rows.map f ≠ [] := fun f => by simpa using hne
  obtain ⟨xa, xa1, xa2, xa3⟩ := maxR_spec (hm fun g => g.rMid * Real.sin g.clocking)
  obtain ⟨xb, xb1, xb2, xb3⟩ := minR_spec (hm fun g => g.rMid * Real.sin g.clocking)
  obtain ⟨ya, ya1, ya2, ya3⟩ := maxR_spec (hm fun g => g.rMid * Real.cos g.clocking)
  obtain ⟨yb, yb1, yb2, yb3⟩ := minR_spec (hm fun g => g.rMid * Real.cos g.clocking)
  obtain ⟨da, da1, da2, da3⟩ := maxR_spec (hm SpoRow.azwidth)
  obtain ⟨dr, dr1, dr2, dr3⟩ := maxR_spec (hm fun g => g.outer - g.inner)
  have hr : rmidSpo (rows.map spoPos4d) = .ok (1 / 2 * (ya + yb)) := by
    simp only [rmidSpo, e1, ya1, yb1]
  refine ⟨xa, xb, ya, yb, da, dr, hG _ _ xa2 xa3, hL _ _ xb2 xb3, hG _ _ ya2 ya3, hL _ _ yb2 yb3, hG _ _ da2 da3, hG _ _ dr2 dr3, hr, ?_⟩
  simp only [zoomCover, hr, e0, e1, xa1, xb1, ya1, da1, dr1]

theorem rect_place (x y zx zy : ℝ) (hx : 0 < zx) (hy : 0 < zy) :
    (parsePosition [("position", .vec [x, y, 12200]), ("zoom", .vec [1, zx, zy]),
          ("orientation", .mat3 !![0, 1, 0; 0, 0, 1; 1, 0, 0])]).map Prod.fst =
      .ok !![0, zx, 0, x; 0, 0, zy, y; 1, 0, 0, 12200; 0, 0, 0, 1] := by
  have hdet : (compose ![x, y, 12200] !![0, 1, 0; 0, 0, 1; 1, 0, 0] ![1, zx, zy]).det ≠ 0 := by
    rw [det_compose]; simp [Matrix.det_fin_three, hx.ne', hy.ne']
  have : parsePosition [("position", .vec [x, y, 12200]), ("zoom", .vec [1, zx, zy]),
          ("orientation", .mat3 !![0, 1, 0; 0, 0, 1; 1, 0, 0])] = .ok (compose ![x, y, 12200] !![0, 1, 0; 0, 0, 1; 1, 0, 0] ![1, zx, zy], []) := by
    simp [parsePosition, Kwargs.get?, zoomOf, positionOf, orientationOf, not_le.2 one_pos, hx.not_ge, hy.not_ge, hdet, Kwargs.pop]
  rw [this]
  simp only [Except.map]
  congr 1
  ext i j; fin_cases i <;> fin_cases j <;> simp [compose]

theorem rect_iff (x y zx zy : ℝ) (hx : 0 < zx) (hy : 0 < zy) (p : Fin 3 → ℝ) :
    OnFlat !![0, zx, 0, x; 0, 0, zy, y; 1, 0, 0, 12200; 0, 0, 0, 1] p ↔ |p 0 - x| ≤ zx ∧ |p 1 - y| ≤ zy ∧ p 2 = 12200 := by
  constructor
  · rintro ⟨u, v, hu, hv, h⟩
    have h0 := h 0; have h1 := h 1; have h2 := h 2
    simp at h0 h1 h2
    refine ⟨?_, ?_, h2⟩
    · rw [h0]; simp [abs_mul, abs_of_pos hx]; nlinarith [abs_nonneg u]
    · rw [h1]; simp [abs_mul, abs_of_pos hy]; nlinarith [abs_nonneg v]
  · rintro ⟨h0, h1, h2⟩
    refine ⟨(p 0 - x) / zx, (p 1 - y) / zy, ?_, ?_, ?_⟩
    · rw [abs_div, abs_of_pos hx, div_le_one hx]; exact h0
    · rw [abs_div, abs_of_pos hy, div_le_one hy]; exact h1
    · intro i
      fin_cases i <;> simp
      · field_simp; ring
      · field_simp; ring
      · exact h2

/-- **C127** (apertures): there is one rectangle per channel, at the height 12200 mm. In y direction it is centered on the SPOs of
the channel, in x direction on the optical axis. Half its width is half the distance of the centers of the SPOs plus 1.1 times the
largest width of an SPO, half its height half the distance of the centers plus 0.8 times the largest thickness of an SPO. -/
theorem C127_rectangles (rows : List SpoRow) (hok : ∀ g ∈ rows, g.Ok) (hne : rows ≠ []) (optAx : List (String × V3)) (channels : List String)
    (hch : ∀ c ∈ channels, (optAx.lookup c).isSome ∧ ('1' ∈ c.toList ∨ '2' ∈ c.toList)) :
    ∃ xa xb ya yb da dr ms, IsGreatest {x | ∃ g ∈ rows, x = g.rMid * Real.sin g.clocking} xa ∧ IsLeast {x | ∃ g ∈ rows, x = g.rMid * Real.sin g.clocking} xb ∧
      IsGreatest {y | ∃ g ∈ rows, y = g.rMid * Real.cos g.clocking} ya ∧ IsLeast {y | ∃ g ∈ rows, y = g.rMid * Real.cos g.clocking} yb ∧
      IsGreatest {d | ∃ g ∈ rows, d = g.azwidth} da ∧ IsGreatest {d | ∃ g ∈ rows, d = g.outer - g.inner} dr ∧
      arcusAperture rows optAx channels = .ok ms ∧
      List.Forall₂ (fun c m => ∃ p, optAx.lookup c = some p ∧ ∀ q, OnFlat m q ↔ |q 0 - p.x| ≤ (xa - xb) / 2 + 1.1 * da ∧
        |q 1 - (p.y + chanSign c * ((ya + yb) / 2))| ≤ (ya - yb) / 2 + 0.8 * dr ∧ q 2 = 12200) channels ms := by
  obtain ⟨xa, xb, ya, yb, da, dr, h1, h2, h3, h4, h5, h6, h7, h8⟩ := cover_spec rows hne 1.1 0.8
  have hda : 0 < da := by obtain ⟨⟨g, hg, rfl⟩, -⟩ := h5; exact (hok g hg).az_pos
  have hdr : 0 < dr := by obtain ⟨⟨g, hg, rfl⟩, -⟩ := h6; have := (hok g hg).dr_pos; linarith
  have hx : xb ≤ xa := h1.2 h2.1
  have hy : yb ≤ ya := h3.2 h4.1
  refine ⟨xa, xb, ya, yb, da, dr, ?_⟩
  simp only [arcusAperture, h8]
  have hzx : 0 < xa - 1 / 2 * (xa + xb) + 1.1 * da := by linarith
  have hzy : 0 < ya - 1 / 2 * (ya + yb) + 0.8 * dr := by linarith
  have hone : ∀ c ∈ channels, ∃ m, apertureOf (rows.map spoPos4d) (1, xa - 1 / 2 * (xa + xb) + 1.1 * da, ya - 1 / 2 * (ya + yb) + 0.8 * dr) optAx c = .ok m ∧
      ∃ p, optAx.lookup c = some p ∧ ∀ q, OnFlat m q ↔ |q 0 - p.x| ≤ (xa - xb) / 2 + 1.1 * da ∧
        |q 1 - (p.y + chanSign c * ((ya + yb) / 2))| ≤ (ya - yb) / 2 + 0.8 * dr ∧ q 2 = 12200 := by
    intro c hc
    obtain ⟨k1, k2⟩ := hch c hc
    obtain ⟨p, hp⟩ := Option.isSome_iff_exists.1 k1
    have ex : (xa - xb) / 2 + 1.1 * da = xa - 1 / 2 * (xa + xb) + 1.1 * da := by ring
    have ey : (ya - yb) / 2 + 0.8 * dr = ya - 1 / 2 * (ya + yb) + 0.8 * dr := by ring
    by_cases hc1 : '1' ∈ c.toList
    · refine ⟨!![0, xa - 1 / 2 * (xa + xb) + 1.1 * da, 0, p.x; 0, 0, ya - 1 / 2 * (ya + yb) + 0.8 * dr, p.y + 1 / 2 * (ya + yb); 1, 0, 0, 12200; 0, 0, 0, 1],
        ?_, p, hp, ?_⟩
      · simp only [apertureOf, hp, h7, hc1, if_true]
        exact rect_place _ _ _ _ hzx hzy
      · intro q
        rw [rect_iff _ _ _ _ hzx hzy, ex, ey, chanSign, if_pos hc1, one_mul, show (ya + yb) / 2 = 1 / 2 * (ya + yb) by ring]
    · have hc2 : '2' ∈ c.toList := k2.resolve_left hc1
      refine ⟨!![0, xa - 1 / 2 * (xa + xb) + 1.1 * da, 0, p.x; 0, 0, ya - 1 / 2 * (ya + yb) + 0.8 * dr, p.y - 1 / 2 * (ya + yb); 1, 0, 0, 12200; 0, 0, 0, 1],
        ?_, p, hp, ?_⟩
      · simp only [apertureOf, hp, h7, hc1, hc2, if_true, if_false]
        exact rect_place _ _ _ _ hzx hzy
      · intro q
        rw [rect_iff _ _ _ _ hzx hzy, ex, ey, chanSign, if_neg hc1, show p.y + -1 * ((ya + yb) / 2) = p.y - 1 / 2 * (ya + yb) by ring]
  clear hch
  suffices h : ∃ ms, channels.mapM (apertureOf (rows.map spoPos4d) (1, xa - 1 / 2 * (xa + xb) + 1.1 * da, ya - 1 / 2 * (ya + yb) + 0.8 * dr) optAx) = .ok ms ∧
      List.Forall₂ (fun c m => ∃ p, optAx.lookup c = some p ∧ ∀ q, OnFlat m q ↔ |q 0 - p.x| ≤ (xa - xb) / 2 + 1.1 * da ∧
        |q 1 - (p.y + chanSign c * ((ya + yb) / 2))| ≤ (ya - yb) / 2 + 0.8 * dr ∧ q 2 = 12200) channels ms by
    obtain ⟨ms, a, b⟩ := h
    exact ⟨ms, h1, h2, h3, h4, h5, h6, a, b⟩
  induction channels with
  | nil => exact ⟨[], rfl, .nil⟩
  | cons c cs ih =>
    obtain ⟨m, a1, a2⟩ := hone c List.mem_cons_self
    obtain ⟨ms, b1, b2⟩ := ih fun c' hc' => hone c' (List.mem_cons_of_mem _ hc')
    refine ⟨m :: ms, ?_, .cons a2 b2⟩
    rw [List.mapM_cons, a1, b1]; rfl

/-- **C127** (full statement): every photon along the optical axis that would hit an SPO of a channel passes the aperture of this channel. False of the
code, see `C127_covers_false`. Proved for tables in which the centers of the SPOs lie symmetrically left and right of the
optical axis and the SPOs are not larger than the margins of the aperture. -/
theorem C127_covers_partial (rows : List SpoRow) (hok : ∀ g ∈ rows, g.Ok) (optAx : List (String × V3)) (channels : List String)
    (hch : ∀ c ∈ channels, (optAx.lookup c).isSome ∧ ('1' ∈ c.toList ∨ '2' ∈ c.toList))
    (hsym : ∀ g ∈ rows, ∃ g' ∈ rows, g'.rMid * Real.sin g'.clocking = -(g.rMid * Real.sin g.clocking))
    (haz : ∀ g ∈ rows, ∃ g' ∈ rows, g.azwidth / 2 * |Real.cos g.clocking| + 18 * g.plateHeight * |Real.sin g.clocking| ≤ 1.1 * g'.azwidth)
    (hdr : ∀ g ∈ rows, ∃ g' ∈ rows, g.azwidth / 2 * |Real.sin g.clocking| + 18 * g.plateHeight * |Real.cos g.clocking| ≤ 0.8 * (g'.outer - g'.inner))
    (hne : rows ≠ []) :
    ∃ ms, arcusAperture rows optAx channels = .ok ms ∧
      List.Forall₂ (fun c m => ∃ p, optAx.lookup c = some p ∧ ∀ g ∈ rows, ∀ q, OnFlat (spoAt p (chanSign c) g) q →
        OnFlat m ![q 0, q 1, 12200]) channels ms := by
  obtain ⟨xa, xb, ya, yb, da, dr, ms, h1, h2, h3, h4, h5, h6, h7, h8⟩ := C127_rectangles rows hok hne optAx channels hch
  refine ⟨ms, h7, h8.imp ?_⟩
  rintro c m ⟨p, hp, hm⟩
  refine ⟨p, hp, ?_⟩
  intro g hg q ⟨u, v, hu, hv, hq⟩
  rw [hm]
  have hσ : |chanSign c| = 1 := by rw [chanSign]; split <;> simp
  have hxab : xb = -xa := by
    obtain ⟨g1, hg1, e1⟩ := h1.1
    obtain ⟨g2, hg2, e2⟩ := h2.1
    obtain ⟨g1', hg1', e1'⟩ := hsym g1 hg1
    obtain ⟨g2', hg2', e2'⟩ := hsym g2 hg2
    have a1 := h2.2 ⟨g1', hg1', rfl⟩
    have a2 := h1.2 ⟨g2', hg2', rfl⟩
    linarith
  have bx1 := h1.2 ⟨g, hg, rfl⟩
  have bx2 := h2.2 ⟨g, hg, rfl⟩
  have by1 := h3.2 ⟨g, hg, rfl⟩
  have by2 := h4.2 ⟨g, hg, rfl⟩
  obtain ⟨ga, hga, haz⟩ := haz g hg
  obtain ⟨gd, hgd, hdr⟩ := hdr g hg
  have b3 := h5.2 ⟨ga, hga, rfl⟩
  have b4 := h6.2 ⟨gd, hgd, rfl⟩
  have hw := (hok g hg).az_pos
  have hh := (hok g hg).plate_pos
  have q0 := hq 0
  have q1 := hq 1
  simp [spoAt] at q0 q1
  change _ ≤ xa at bx1
  change xb ≤ _ at bx2
  have hr : (g.outer + g.inner) / 2 = g.rMid := rfl
  rw [hr] at q0 q1
  generalize chanSign c = σ at *
  generalize Real.sin g.clocking = sn at *
  generalize Real.cos g.clocking = cs at *
  generalize g.rMid = rm at *
  have hu' : |u| * (g.azwidth / 2) ≤ g.azwidth / 2 := by nlinarith
  have hv' : |v| * (18 * g.plateHeight) ≤ 18 * g.plateHeight := by nlinarith
  refine ⟨?_, ?_, by simp⟩
  · have e : q 0 - p.x = σ * (rm * sn + (u * (g.azwidth / 2) * cs + v * (18 * g.plateHeight) * sn)) := by rw [q0]; ring
    simp only [Matrix.cons_val_zero]
    rw [e, abs_mul, hσ, one_mul]
    have t1 : |u * (g.azwidth / 2) * cs| ≤ g.azwidth / 2 * |cs| := by
      rw [abs_mul, abs_mul, abs_of_pos (by positivity : 0 < g.azwidth / 2)]
      exact mul_le_mul_of_nonneg_right hu' (abs_nonneg _)
    have t2 : |v * (18 * g.plateHeight) * sn| ≤ 18 * g.plateHeight * |sn| := by
      rw [abs_mul, abs_mul, abs_of_pos (by positivity : 0 < 18 * g.plateHeight)]
      exact mul_le_mul_of_nonneg_right hv' (abs_nonneg _)
    have t3 : |rm * sn| ≤ xa := abs_le.2 ⟨by linarith, bx1⟩
    have t4 := abs_add_le (rm * sn) (u * (g.azwidth / 2) * cs + v * (18 * g.plateHeight) * sn)
    have t5 := abs_add_le (u * (g.azwidth / 2) * cs) (v * (18 * g.plateHeight) * sn)
    linarith
  · have e : q 1 - (p.y + σ * ((ya + yb) / 2)) = σ * ((rm * cs - (ya + yb) / 2) + (-(u * (g.azwidth / 2) * sn) + v * (18 * g.plateHeight) * cs)) := by rw [q1]; ring
    simp only [Matrix.cons_val_one, Matrix.cons_val_zero]
    rw [e, abs_mul, hσ, one_mul]
    have t1 : |-(u * (g.azwidth / 2) * sn)| ≤ g.azwidth / 2 * |sn| := by
      rw [abs_neg, abs_mul, abs_mul, abs_of_pos (by positivity : 0 < g.azwidth / 2)]
      exact mul_le_mul_of_nonneg_right hu' (abs_nonneg _)
    have t2 : |v * (18 * g.plateHeight) * cs| ≤ 18 * g.plateHeight * |cs| := by
      rw [abs_mul, abs_mul, abs_of_pos (by positivity : 0 < 18 * g.plateHeight)]
      exact mul_le_mul_of_nonneg_right hv' (abs_nonneg _)
    have t3 : |rm * cs - (ya + yb) / 2| ≤ (ya - yb) / 2 := abs_le.2 ⟨by linarith, by linarith⟩
    have t4 := abs_add_le (rm * cs - (ya + yb) / 2) (-(u * (g.azwidth / 2) * sn) + v * (18 * g.plateHeight) * cs)
    have t5 := abs_add_le (-(u * (g.azwidth / 2) * sn)) (v * (18 * g.plateHeight) * cs)
    linarith

/-- Example: two SPOs, symmetric to the y axis. -/
noncomputable def exSym : List SpoRow := [⟨300, 340, Real.pi / 6, 60, 0.5, 60, 12000⟩, ⟨300, 340, -(Real.pi / 6), 60, 0.5, 60, 12000⟩]

example : ∃ ms, arcusAperture exSym [("1", ⟨0, 0, 0⟩), ("2", ⟨10, 600, 0⟩)] ["1", "2"] = .ok ms ∧ ms.length = 2 := by
  have hs : Real.sin (Real.pi / 6) = 1 / 2 := Real.sin_pi_div_six
  have hc : Real.sqrt 3 / 2 ≤ 1 := by rw [← Real.cos_pi_div_six]; exact Real.cos_le_one _
  have hc0 : 0 ≤ Real.cos (Real.pi / 6) := Real.cos_nonneg_of_mem_Icc ⟨by linarith [Real.pi_pos], by linarith [Real.pi_pos]⟩
  obtain ⟨ms, h1, h2⟩ := C127_covers_partial exSym (by
      intro g hg
      simp only [exSym, List.mem_cons, List.not_mem_nil, or_false] at hg
      rcases hg with rfl | rfl <;> constructor <;> norm_num)
    [("1", ⟨0, 0, 0⟩), ("2", ⟨10, 600, 0⟩)] ["1", "2"] (by simp [List.lookup])
    (by simp [exSym, SpoRow.rMid])
    (by simp [exSym, abs_of_nonneg hc0]; norm_num [abs_of_pos]; linarith)
    (by simp [exSym, abs_of_nonneg hc0]; norm_num [abs_of_pos]; linarith)
    (by simp [exSym])
  exact ⟨ms, h1, by have := h2.length_eq; simpa using this.symm⟩

/-- **C127** The aperture is always centered on the optical axis in x direction, although its width is calculated relative to the
middle of the SPOs: with an SPO that is not symmetric to the axis, no photon along the axis that hits the SPO comes through the aperture. -/
theorem C127_covers_false : ∃ (g : SpoRow) (m : M4), g.Ok ∧ arcusAperture [g] [("1", ⟨0, 0, 0⟩)] ["1"] = .ok [m] ∧
    ∀ q, OnFlat (spoAt ⟨0, 0, 0⟩ (chanSign "1") g) q → ¬ OnFlat m ![q 0, q 1, 12200] := by
  set g : SpoRow := ⟨100, 120, Real.pi / 2, 10, 0.5, 60, 12000⟩ with hg
  have hok : g.Ok := by rw [hg]; constructor <;> norm_num
  obtain ⟨xa, xb, ya, yb, da, dr, ms, h1, h2, h3, h4, h5, h6, h7, h8⟩ := C127_rectangles [g] (by simpa using hok) (by simp)
    [("1", ⟨0, 0, 0⟩)] ["1"] (by simp [List.lookup])
  cases h8 with
  | cons a b =>
    cases b
    next m =>
    refine ⟨g, m, hok, h7, ?_⟩
    obtain ⟨p, hp, hm⟩ := a
    obtain rfl : p = ⟨0, 0, 0⟩ := by simpa [List.lookup] using hp.symm
    intro q ⟨u, v, hu, hv, hq⟩ hf
    rw [hm] at hf
    have q0 := hq 0
    have e1 : xa = 110 := by
      obtain ⟨g', hg', rfl⟩ := h1.1
      rw [List.mem_singleton] at hg'
      rw [hg', hg]; simp [SpoRow.rMid]; norm_num
    have e2 : xb = 110 := by
      obtain ⟨g', hg', rfl⟩ := h2.1
      rw [List.mem_singleton] at hg'
      rw [hg', hg]; simp [SpoRow.rMid]; norm_num
    have e3 : da = 10 := by
      obtain ⟨g', hg', rfl⟩ := h5.1
      rw [List.mem_singleton] at hg'
      rw [hg', hg]
    simp [spoAt, chanSign, hg] at q0
    have hf0 := hf.1
    simp only [Matrix.cons_val_zero] at hf0
    rw [e1, e2, e3, q0] at hf0
    have := (abs_le.1 hf0).2
    have := (abs_le.1 hv).1
    norm_num at *
    linarith

/-- **C127** Channels that are not in the configuration and channels that have neither 1 nor 2 in their name are refused. -/
theorem C127_refused (rows : List SpoRow) (hne : rows ≠ []) (optAx : List (String × V3)) (c : String) (cs : List String) :
    (optAx.lookup c = none → arcusAperture rows optAx (c :: cs) = .error .keyError) ∧
    ((optAx.lookup c).isSome → '1' ∉ c.toList → '2' ∉ c.toList → arcusAperture rows optAx (c :: cs) = .error .valueError) := by
  obtain ⟨xa, xb, ya, yb, da, dr, -, -, -, -, -, -, h7, h8⟩ := cover_spec rows hne 1.1 0.8
  refine ⟨fun h => ?_, fun h ha hb => ?_⟩
  · simp only [arcusAperture, h8, List.mapM_cons, apertureOf, h]; rfl
  · obtain ⟨p, hp⟩ := Option.isSome_iff_exists.1 h
    simp only [arcusAperture, h8, List.mapM_cons, apertureOf, hp, h7, ha, hb, if_false]; rfl

/-- **C127** Without SPOs there is no aperture. -/
theorem C127_empty (optAx : List (String × V3)) (channels : List String) : arcusAperture [] optAx channels = .error .indexError := by
  simp [arcusAperture, zoomCover, maxR]

/-- **C126** A lens needs a focal length; without a distance from the optical axis its centre is on the axis. -/
theorem C126_lens (args : Kwargs) (f : ℝ) :
    (args.get? "focallength" = none → lensInit args = .error .keyError) ∧
    (args.get? "focallength" = some (.num f) → args.get? "d_center_optical_axis" = none → lensInit args = .ok (f, 0)) ∧
    ∀ d, args.get? "focallength" = some (.num f) → args.get? "d_center_optical_axis" = some (.num d) →
      lensInit args = .ok (f, d) := by
  refine ⟨fun h => by simp only [lensInit, h], fun h1 h2 => by simp only [lensInit, h1, h2],
    fun d h1 h2 => by simp only [lensInit, h1, h2]⟩

/-- A lens with only a focal length. -/
example : lensInit [("focallength", .num 12000)] = .ok (12000, 0) :=
  (C126_lens [("focallength", .num 12000)] 12000).2.1 rfl rfl

end Marxs
