import Verif.Spec.Defaults

/-!
# C186: defaults and keywords of the user
-/

namespace Marxs
open Classical

theorem get_put (kw : Kwargs) (k k' : String) (v : PyVal) : (kw.put k v).get? k' = if k' = k then some v else kw.get? k' := by
  by_cases h : k' = k
  · subst h; simp [Kwargs.put, Kwargs.get?]
  · rw [if_neg h]
    have h1 : (k == k') = false := by simpa using fun e => h e.symm
    simp only [Kwargs.put, Kwargs.get?, List.find?_cons, h1, Kwargs.pop]
    congr 1
    induction kw with
    | nil => rfl
    | cons a l ih =>
      by_cases ha : a.1 = k
      · have : (a.1 == k') = false := by rw [ha]; exact h1
        simp only [List.filter_cons, List.find?_cons, this, ha, bne_self_eq_false, Bool.false_eq_true, if_false, h1]
        exact ih
      · by_cases hb : a.1 = k'
        · have : (a.1 == k') = true := by simpa using hb
          have hn : (a.1 != k) = true := by simpa using ha
          simp only [List.filter_cons, hn, if_true, List.find?_cons, this]
        · have : (a.1 == k') = false := by simpa using hb
          have hn : (a.1 != k) = true := by simpa using ha
          simp only [List.filter_cons, hn, if_true, List.find?_cons, this]
          exact ih

theorem has_eq (kw : Kwargs) (k : String) : kw.has k = (kw.get? k).isSome := rfl

theorem fillDefaults_completed (defaults kw : Kwargs) : CompletedBy defaults kw (fillDefaults defaults kw) := by
  unfold fillDefaults
  induction defaults generalizing kw with
  | nil => intro k; simp only [List.foldl_nil]; rcases kw.get? k <;> rfl
  | cons d l ih =>
    intro k
    rw [List.foldl_cons, ih _ k]
    by_cases hd : kw.has d.1
    · rw [if_pos hd]
      rcases h : kw.get? k with _ | v
      · simp only [Kwargs.get?, List.find?_cons]
        have : (d.1 == k) = false := by
          by_contra hne
          have e : d.1 = k := by simpa using hne
          rw [has_eq, e, h] at hd
          simp at hd
        rw [this]
      · rfl
    · rw [if_neg hd, get_put]
      have hd' : kw.get? d.1 = none := by rw [has_eq] at hd; simpa using hd
      by_cases e : k = d.1
      · subst e
        rw [if_pos rfl, hd']
        simp [Kwargs.get?]
      · rw [if_neg e]
        rcases h : kw.get? k with _ | v
        · have : (d.1 == k) = false := by simpa using fun e' => e e'.symm
          simp only [Kwargs.get?, List.find?_cons, this]
        · rfl

/-- **C186** `DefaultSource`: all keywords of the user reach the source unchanged, defaults are used for those that are not given. -/
theorem C186_source (defaults kw : Kwargs) : CompletedBy defaults kw (defaultSource defaults kw) := fillDefaults_completed defaults kw

/-- **C186** `DefaultPointing`: the same, and the file with the jitter is only needed if the jitter is not given. -/
theorem C186_pointing (defaults : Kwargs) (hj : defaults.get? "jitter" = none) (jitter : Except Err PyVal) (kw : Kwargs) :
    (∀ v, kw.get? "jitter" = some v → ∃ out, defaultPointing defaults jitter kw = .ok out ∧ CompletedBy defaults kw out) ∧
    (kw.get? "jitter" = none → (∀ e, jitter = .error e → defaultPointing defaults jitter kw = .error e) ∧
      ∀ j, jitter = .ok j → ∃ out, defaultPointing defaults jitter kw = .ok out ∧ CompletedBy (("jitter", j) :: defaults) kw out) := by
  have h := fillDefaults_completed defaults kw
  have hh := h "jitter"
  refine ⟨fun v hv => ⟨fillDefaults defaults kw, ?_, h⟩, fun hn => ⟨fun e he => ?_, fun j hjj => ⟨(fillDefaults defaults kw).put "jitter" j, ?_, fun k => ?_⟩⟩⟩
  · rw [hv] at hh
    simp only [defaultPointing, has_eq, hh, Option.isSome_some, if_true]
  · rw [hn, hj] at hh
    simp [defaultPointing, has_eq, hh, he]
  · rw [hn, hj] at hh
    simp [defaultPointing, has_eq, hh, hjj]
  · rw [get_put]
    by_cases e : k = "jitter"
    · subst e; rw [if_pos rfl, hn]; simp [Kwargs.get?]
    · have : ("jitter" == k) = false := by simpa using fun e' => e e'.symm
      rw [if_neg e, h k]
      simp only [Kwargs.get?, List.find?_cons, this]

theorem put_completed (kw : Kwargs) (k : String) (v : PyVal) : CompletedBy [(k, v)] kw (if kw.has k then kw else kw.put k v) := by
  have := fillDefaults_completed [(k, v)] kw
  simpa only [fillDefaults, List.foldl_cons, List.foldl_nil] using this

/-- **C186** The aperture of Chandra: other sub-apertures and another name for the column with their number can be given, the four rings and `mirror_shell` are used otherwise. -/
theorem C186_aperture (rings : PyVal) (kw : Kwargs) :
    CompletedBy [("id_col", .str "mirror_shell"), ("elements", rings)] kw (chandraAperture rings kw) := by
  have := fillDefaults_completed [("id_col", .str "mirror_shell"), ("elements", rings)] kw
  simpa only [chandraAperture, fillDefaults, List.foldl_cons, List.foldl_nil] using this

/-- **C186** The focal plane detector of Arcus: zoom and orientation of the user are used. If `pos4d` is given, nothing is added, so that it can never conflict with a default. -/
theorem C186_focal_plane (rot : M3) (kw : Kwargs) :
    (∀ v, kw.get? "pos4d" = some v → focalPlaneDet rot kw = kw) ∧
    (kw.get? "pos4d" = none → CompletedBy [("zoom", .list [.num 0.2, .num 10000, .num 10000]), ("orientation", .mat3 rot)] kw (focalPlaneDet rot kw)) := by
  constructor
  · intro v hv
    simp [focalPlaneDet, has_eq, hv]
  · intro hn
    have := fillDefaults_completed [("zoom", .list [.num 0.2, .num 10000, .num 10000]), ("orientation", .mat3 rot)] kw
    simp only [fillDefaults, List.foldl_cons, List.foldl_nil] at this
    have e : focalPlaneDet rot kw = (if (if kw.has "zoom" then kw else kw.put "zoom" (.list [.num 0.2, .num 10000, .num 10000])).has "orientation" then
        (if kw.has "zoom" then kw else kw.put "zoom" (.list [.num 0.2, .num 10000, .num 10000]))
        else (if kw.has "zoom" then kw else kw.put "zoom" (.list [.num 0.2, .num 10000, .num 10000])).put "orientation" (.mat3 rot)) := by
      have hp : ∀ v, (kw.put "zoom" v).has "pos4d" = false := fun v => by rw [has_eq, get_put]; simp [hn]
      have hp' : kw.has "pos4d" = false := by rw [has_eq, hn]; rfl
      unfold focalPlaneDet
      rcases hz : kw.has "zoom"
      · simp only [hz, hp', Bool.not_false, Bool.and_self, if_true, hp, Bool.and_true, Bool.false_eq_true, if_false]
        rcases (kw.put "zoom" (PyVal.list [PyVal.num 0.2, PyVal.num 10000, PyVal.num 10000])).has "orientation" <;> simp
      · simp only [hz, hp', Bool.not_true, Bool.false_and, Bool.false_eq_true, if_false, Bool.not_false, Bool.and_true, if_true]
        rcases kw.has "orientation" <;> simp
    rw [e]; exact this

/-- **C186** What is missing for the mirror of Chandra (`HRMA`): only keywords other than position, zoom, elements and keywords are passed on. -/
theorem C186_hrma_partial (f : ℝ) (elements keywords : PyVal) (kw : Kwargs) (k : String) (hk : k ∉ ["position", "zoom", "elements", "keywords"]) :
    (hrma f elements keywords kw).get? k = kw.get? k := by
  simp only [List.mem_cons, List.not_mem_nil, or_false, not_or] at hk
  simp [hrma, get_put, hk]

/-- **C186** The mirror of Chandra is on the optical axis (x) at the focal length from the origin, and extends to 650 mm on all sides, whatever the user gives. -/
theorem C186_hrma_nominal (f : ℝ) (elements keywords : PyVal) (kw : Kwargs) :
    (hrma f elements keywords kw).get? "position" = some (.list [.num f, .num 0, .num 0]) ∧
    (hrma f elements keywords kw).get? "zoom" = some (.list [.num 1, .num 650, .num 650]) ∧
    (hrma f elements keywords kw).get? "elements" = some elements ∧ (hrma f elements keywords kw).get? "keywords" = some keywords := by
  simp [hrma, get_put]

/-- **C186** Position and size of the mirror are those of the nominal mirror whatever the user gives, without a warning. -/
theorem C186_hrma_false : ¬ ∀ (f : ℝ) (elements keywords : PyVal) (kw : Kwargs) (k : String) (v : PyVal), kw.get? k = some v → (hrma f elements keywords kw).get? k = some v := by
  intro h
  have := h 1 (.num 0) (.num 0) [("position", .list [.num 2, .num 0, .num 0])] "position" (.list [.num 2, .num 0, .num 0]) (by simp [Kwargs.get?])
  simp [hrma, get_put] at this

/-- **C186** `DetMany` cannot be used: the attributes that it hands to its base class are not there yet. -/
theorem C186_det_many_false (conf kw : Kwargs) (r : PyVal) (hr : conf.get? "rowland_detector" = some r) : detMany detManyAttrs conf kw = .error .attributeError := by
  simp only [detMany, hr]
  simp [classAttr, detManyAttrs, Kwargs.get?]
  rfl

/-- **C186** If a derived class adds these attributes, keywords of the user are dropped without a warning. -/
theorem C186_det_many_dropped_false : ¬ ∀ (attrs conf kw out : Kwargs) (k : String) (v : PyVal), detMany attrs conf kw = .ok out → kw.get? k = some v → out.get? k = some v := by
  intro h
  have := h [("elem_class", .str "CCD"), ("elem_args", .str ""), ("d_element", .num 25), ("y_range", .list [.num (-400), .num 400])] [("rowland_detector", .num 0)]
    [("id_col", .str "chip")] _ "id_col" (.str "chip") rfl (by simp [Kwargs.get?])
  simp [Kwargs.get?] at this

/-- A source with the energy given by the user, other values from the defaults. -/
example : (defaultSource [("coords", .num 30), ("energy", .num 0.5), ("flux", .num 1)] [("energy", .num 2)]).get? "energy" = some (.num 2) ∧
    (defaultSource [("coords", .num 30), ("energy", .num 0.5), ("flux", .num 1)] [("energy", .num 2)]).get? "flux" = some (.num 1) := by
  have h := C186_source [("coords", .num 30), ("energy", .num 0.5), ("flux", .num 1)] [("energy", .num 2)]
  exact ⟨by rw [h]; simp [Kwargs.get?], by rw [h]; simp [Kwargs.get?]⟩

/-- The defaults for the pointing have no jitter. -/
example : Kwargs.get? [("coords", .num 30), ("reference_transform", .mat4 1)] "jitter" = none := by simp [Kwargs.get?]

/-- A keyword that is passed on. -/
example : "id_col" ∉ ["position", "zoom", "elements", "keywords"] := by simp

end Marxs
