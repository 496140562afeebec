import Verif.Model.SmallTools
import Verif.Props.MissionsMore
import Verif.Props.MathUtils

/-!
# C175, C176: small tools
-/

namespace Marxs
open Classical

theorem dot_le_norms (a b : V3) : |a.dot b| ≤ a.norm * b.norm := by
  have h : a.dot b ^ 2 ≤ (a.norm * b.norm) ^ 2 := by
    have ha : a.norm ^ 2 = a.dot a := Real.sq_sqrt (by simp only [V3.dot]; nlinarith [sq_nonneg a.x, sq_nonneg a.y, sq_nonneg a.z])
    have hb : b.norm ^ 2 = b.dot b := Real.sq_sqrt (by simp only [V3.dot]; nlinarith [sq_nonneg b.x, sq_nonneg b.y, sq_nonneg b.z])
    rw [mul_pow, ha, hb]
    simp only [V3.dot]
    nlinarith [sq_nonneg (a.x * b.y - a.y * b.x), sq_nonneg (a.x * b.z - a.z * b.x), sq_nonneg (a.y * b.z - a.z * b.y)]
  exact abs_le_of_sq_le_sq h (mul_nonneg (Real.sqrt_nonneg _) (Real.sqrt_nonneg _))

/-- **C175** (partial: for one line, see `C175_lines_false`) The angle between a line and the normal of a plane is between 0 and `π`, and its
cosine is the scalar product of the two unit vectors; it does not depend on the points that define line and plane. It is a right angle if
and only if the line never leaves the plane or never meets it. -/
theorem C175_angle_partial (u p : V3) (q n : H4) (hn0 : n.w = 0) (hu : u ≠ 0) (hn : n.xyz ≠ 0) :
    ∃ φ, angleLinePlane (dirPoint2line u p) (pointDir2plane q n) = some φ ∧ 0 ≤ φ ∧ φ ≤ Real.pi ∧
      u.norm * n.xyz.norm * Real.cos φ = u.dot n.xyz ∧
      (φ = Real.pi / 2 ↔ (∀ s, OnLine p u s → OnPlane q.point n.xyz s) ∨ ∀ s, OnLine p u s → ¬ OnPlane q.point n.xyz s) := by
  have hun := V3.norm_ne_zero hu
  have hnn := V3.norm_ne_zero hn
  have hN1 : n.xyz.unit.norm = 1 := by rw [V3.norm, V3.unit_dot_unit hn, Real.sqrt_one]
  have hup : 0 < u.norm := lt_of_le_of_ne (Real.sqrt_nonneg _) (Ne.symm hun)
  have hnp : 0 < n.xyz.norm := lt_of_le_of_ne (Real.sqrt_nonneg _) (Ne.symm hnn)
  have hNdot : u.dot n.xyz.unit = u.dot n.xyz / n.xyz.norm := by simp [V3.unit]; field_simp
  have hval : u.dot n.xyz.unit / (u.norm * 1) = u.dot n.xyz / (u.norm * n.xyz.norm) := by
    rw [hNdot]; field_simp
  have hcs := abs_le.1 (dot_le_norms u n.xyz)
  have hpos : 0 < u.norm * n.xyz.norm := mul_pos hup hnp
  have hb1 : -1 ≤ u.dot n.xyz / (u.norm * n.xyz.norm) := by rw [le_div_iff₀ hpos]; linarith [hcs.1]
  have hb2 : u.dot n.xyz / (u.norm * n.xyz.norm) ≤ 1 := by rw [div_le_iff₀ hpos]; linarith [hcs.2]
  refine ⟨Real.arccos (u.dot n.xyz / (u.norm * n.xyz.norm)), ?_, Real.arccos_nonneg _, Real.arccos_le_pi _, ?_, ?_⟩
  · have h0 : ¬ (dirPoint2line u p).u.norm * (pointDir2plane q n).xyz.norm = 0 := by
      rw [plane_xyz q n hn0, hN1]; simpa [dirPoint2line] using hun
    rw [angleLinePlane, if_neg h0, plane_xyz q n hn0, hN1]
    exact congrArg (fun x => some (Real.arccos x)) hval
  · rw [Real.cos_arccos hb1 hb2]; field_simp
  · rw [Real.arccos_eq_pi_div_two, div_eq_zero_iff]
    constructor
    · rintro (h | h)
      · by_cases hp : OnPlane q.point n.xyz p
        · refine .inl ?_
          rintro s ⟨t, rfl⟩
          simp only [OnPlane, V3.dot_sub_left, V3.dot_add_left, V3.dot_smul_left, h] at hp ⊢
          linarith
        · refine .inr ?_
          rintro s ⟨t, rfl⟩ hs
          apply hp
          simp only [OnPlane, V3.dot_sub_left, V3.dot_add_left, V3.dot_smul_left, h] at hs ⊢
          linarith
      · exact absurd h hpos.ne'
    · intro h
      left
      by_contra hd
      rcases h with h | h
      · have h0 := h p ⟨0, by ext <;> simp⟩
        have h1 := h (p + (1 : ℝ) • u) ⟨1, rfl⟩
        simp only [OnPlane, V3.dot_sub_left, V3.dot_add_left, V3.dot_smul_left] at h0 h1
        exact hd (by linarith)
      · refine h (p + ((q.point - p).dot n.xyz / u.dot n.xyz) • u) ⟨_, rfl⟩ ?_
        simp only [OnPlane, V3.dot_sub_left, V3.dot_add_left, V3.dot_smul_left]
        field_simp
        ring

/-- **C175** Lines in a table with one line per row, as all other functions of the module take them, always raise an error, although the documentation says
"Line(s)": the table is cut after three lines instead of after three coordinates. -/
theorem C175_lines_false (n : ℕ) : angleShape [6] = .ok [] ∧ angleShape [n, 6] = .error .valueError := ⟨rfl, rfl⟩

example : ∃ (u p : V3) (q n : H4), n.w = 0 ∧ u ≠ 0 ∧ n.xyz ≠ 0 ∧ u.dot n.xyz ≠ 0 :=
  ⟨⟨1, 2, 3⟩, ⟨0, 0, 1⟩, ⟨0, 0, 0, 1⟩, ⟨0, 0, 2, 0⟩, rfl, by intro h; simpa using congrArg V3.x h,
    by intro h; simpa [H4.xyz] using congrArg V3.z h, by norm_num [V3.dot, H4.xyz]⟩

theorem orderRepr_inj {a b : ℤ} (h : toString a = toString b) : a = b := by
  have hN : ∀ i j : ℕ, i.repr = j.repr → i = j := fun i j h => by
    have h3 := congrArg String.toList h
    rw [Nat.toList_repr, Nat.toList_repr] at h3
    rw [← Nat.ofDigitChars_toDigits (b := 10) (n := i) (by omega) (by omega), h3,
      Nat.ofDigitChars_toDigits (by omega) (by omega)]
  have hX : ∀ i j : ℕ, i.repr ≠ "-" ++ j.repr := fun i j h => by
    have h3 := congrArg String.toList h
    rw [Nat.toList_repr, String.toList_append] at h3
    have : '-' ∈ Nat.toDigits 10 i := by rw [h3]; simp
    exact absurd (Nat.isDigit_of_mem_toDigits (by decide) (by decide) this) (by decide)
  cases a with
  | ofNat i =>
    cases b with
    | ofNat j => rw [hN i j h]
    | negSucc j => exact absurd h (hX i (j + 1))
  | negSucc i =>
    cases b with
    | ofNat j => exact absurd h.symm (hX j (i + 1))
    | negSucc j =>
      have h4 := hN (i + 1) (j + 1) ((String.append_right_inj "-").1 h)
      have : i = j := by omega
      rw [this]

theorem orderName_inj {a b : ℤ} (h : "order_" ++ toString a = "order_" ++ toString b) : a = b := by
  have h2 := congrArg String.toList h
  rw [String.toList_append, String.toList_append] at h2
  have h3 := String.toList_injective (List.append_cancel_left h2)
  exact orderRepr_inj h3

/-- **C176** After `aeffRfromraygrid` has written the orders to a header without orders, `csv_per_order` writes a table with the wavelength and one
column for each order, whose name tells the order: the number in row `i` and column `order_o` is the one calculated for energy `i`
and order `o`. -/
theorem C176_csv (hdr : List (String × ℤ)) (orders : List ℤ) (hnew : hdr.lookup ("ORDER_" ++ toString orders.length) = none)
    (hnd : orders.Nodup) (wave : List ℝ) (col : List (List ℝ)) (hl : wave.length = col.length)
    (hc : ∀ r ∈ col, r.length = orders.length) :
    ∃ names rows, csvPerOrder (writeOrders 0 orders hdr) orders.length wave col = .ok (names, rows) ∧ rows.length = col.length ∧
      names.Nodup ∧ names[0]? = some "wave" ∧
      (∀ (i : ℕ) w r, wave[i]? = some w → col[i]? = some r → ∃ r', rows[i]? = some r' ∧ r'[0]? = some w ∧
        r'.length = names.length ∧
        ∀ (k : ℕ) (o : ℤ), orders[k]? = some o → ∃ j : ℕ, names[j]? = some ("order_" ++ toString o) ∧ r'[j]? = r[k]?) := by
  have ho := (C93_round_trip_partial hdr orders hnew).1
  have hnames : (orders.map fun o : ℤ => "order_" ++ toString o).Nodup :=
    (List.nodup_map_iff_inj_on hnd).2 fun a _ b _ h => orderName_inj h
  refine ⟨"wave" :: orders.map (fun o : ℤ => "order_" ++ toString o), List.zipWith (fun w r => w :: r) wave col, ?_, by simp [hl], ?_, rfl, ?_⟩
  · simp only [csvPerOrder, ho]
    rw [if_neg (by simp), if_neg (by simpa using hnames)]
  · refine List.nodup_cons.2 ⟨?_, hnames⟩
    intro h
    obtain ⟨o, -, ho⟩ := List.mem_map.1 h
    have := congrArg (fun s : String => s.toList.head?) ho
    simp only [String.toList_append] at this
    rw [List.head?_append_of_ne_nil _ (by decide)] at this
    exact absurd this (by decide)
  · intro i w r hw hr
    refine ⟨w :: r, by simp [List.getElem?_zipWith, hw, hr], rfl, by simp [hc r (List.mem_of_getElem? hr)], fun k o hk => ⟨k + 1, by simp [hk], by simp⟩⟩

example : ∃ (hdr : List (String × ℤ)) (orders : List ℤ) (wave : List ℝ) (col : List (List ℝ)),
    hdr.lookup ("ORDER_" ++ toString orders.length) = none ∧ orders.Nodup ∧ wave.length = col.length ∧
    ∀ r ∈ col, r.length = orders.length :=
  ⟨[("EXPOSURE", 100)], [-1, 0, 1], [20, 30], [[1, 2, 3], [4, 5, 6]], by decide +kernel, by decide, rfl, by simp⟩

/-- **C176** A number is read from a calibration file only if the file has a single row; it is the number in this row, with the unit
of the column. -/
theorem C176_load_number (f : CalFile) (name : String) (x : ℝ) (unit : Option String) :
    loadNumber f name = .ok (x, unit) ↔
      f.nrows = 1 ∧ ∃ vals, f.cols.lookup name = some (unit, vals) ∧ vals[0]? = some x := by
  unfold loadNumber
  by_cases h1 : f.nrows = 1
  · rw [if_neg (by simpa using h1)]
    rcases h2 : f.cols.lookup name with _ | ⟨u, vals⟩
    · simp
    · rcases h3 : vals[0]? with _ | y
      · simp only [h3, reduceCtorEq, false_iff, not_and, not_exists]
        rintro _ v hv hx
        simp only [Option.some.injEq, Prod.mk.injEq] at hv
        rw [← hv.2, h3] at hx
        cases hx
      · simp only [h3, Except.ok.injEq, Prod.mk.injEq, Option.some.injEq]
        constructor
        · rintro ⟨rfl, rfl⟩; exact ⟨h1, vals, ⟨rfl, rfl⟩, h3⟩
        · rintro ⟨_, v, ⟨rfl, rfl⟩, hx⟩
          rw [h3] at hx
          exact ⟨Option.some.inj hx, rfl⟩
  · rw [if_pos (by simpa using h1)]
    simp [h1]

example : loadNumber ⟨1, [("d", some "mm", [1 / 5000])]⟩ "d" = .ok (1 / 5000, some "mm") := by
  rw [C176_load_number]; exact ⟨rfl, _, rfl, rfl⟩

/-- **C176** Reading a number fails with `ValueError` if and only if the file does not have exactly one row, and with `KeyError` if and only if it has one row but no such column. -/
theorem C176_load_number_errors (f : CalFile) (name : String) :
    (loadNumber f name = .error .valueError ↔ f.nrows ≠ 1) ∧ (loadNumber f name = .error .keyError ↔ f.nrows = 1 ∧ f.cols.lookup name = none) := by
  unfold loadNumber
  by_cases h1 : f.nrows = 1
  · rw [if_neg (by simpa using h1)]
    rcases h2 : f.cols.lookup name with _ | ⟨u, vals⟩
    · simp [h1]
    · rcases h3 : vals[0]? with _ | y <;> simp [h1, h3]
  · rw [if_pos (by simpa using h1)]
    simp [h1]

/-- **C175** The angle is not a number if the line has no direction or the plane has no normal, and only then. -/
theorem C175_degenerate (u p : V3) (plane : H4) : angleLinePlane (dirPoint2line u p) plane = none ↔ u = 0 ∨ plane.xyz = 0 := by
  have h0 : (0 : V3).norm = 0 := by simp [V3.norm, V3.dot]
  have hz : ∀ v : V3, v.norm = 0 ↔ v = 0 := fun v => ⟨fun h => by by_contra hc; exact V3.norm_ne_zero hc h, fun h => by rw [h, h0]⟩
  rw [← hz u, ← hz plane.xyz, ← mul_eq_zero]
  unfold angleLinePlane
  split_ifs with h
  · simpa [dirPoint2line] using h
  · simpa [dirPoint2line] using h

end Marxs
