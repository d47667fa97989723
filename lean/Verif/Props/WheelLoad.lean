/-
C125, tightened: the moving load of a wheel of a ride carries the static load of the wheel to the place of the wheel.
-/
import Verif.Props.TrainOnTrack

set_option linter.unusedSectionVars false

namespace Rose
open Finset

theorem interpLinear_identity (xs : List ℝ) (hxs : 2 ≤ xs.length) (hinc : xs.Pairwise (· < ·)) (x : ℝ) : interpLinear (xs.zip xs) x = x := by
  induction xs with
  | nil => simp at hxs
  | cons a xs ih =>
    cases xs with
    | nil => simp at hxs
    | cons b xs =>
      have hab : a < b := (List.pairwise_cons.1 hinc).1 b (by simp)
      have : b - a ≠ 0 := by linarith
      simp only [List.zip_cons_cons, interpLinear]
      split_ifs with hc
      · field_simp
        ring
      · cases xs with
        | nil => simp at hc
        | cons c xs => exact ih (by simp) (List.pairwise_cons.1 hinc).2

theorem interpLinear_zero (pts : List (ℝ × ℝ)) (h : ∀ p ∈ pts, p.2 = 0) (x : ℝ) : interpLinear pts x = 0 := by
  induction pts with
  | nil => rfl
  | cons a pts ih =>
    cases pts with
    | nil => rfl
    | cons b pts =>
      have ha := h a (by simp)
      have hb := h b (by simp)
      obtain ⟨a1, a2⟩ := a
      obtain ⟨b1, b2⟩ := b
      simp only at ha hb
      subst ha hb
      simp only [interpLinear]
      split_ifs
      · ring
      · exact ih (fun p hp => h p (by simp [hp]))

theorem localNodalLoads_vertical (l x f : ℝ) (b : Buffers ℝ) (phi : ℝ) :
    localNodalLoads phi l x (0, f, 0) b =
      (0, ![f * yShape phi l x 0, f * yShape phi l x 2], ![f * yShape phi l x 1, f * yShape phi l x 3]) := by
  unfold localNodalLoads
  by_cases hf : f = 0
  · subst hf
    simp [Ref.read]
    ext i; fin_cases i <;> rfl
  · simp [hf, Ref.read, distributeShear]

section even
variable {t : HorizontalTrack ℝ} {m : ℕ} {l : ℝ}

/-- The nodal forces of the moving load of a wheel do the work of the static load at the place of the wheel, on every deflection of
a rail without shear deformation. -/
theorem wheelOnRail_work (g : EvenRail t m l) (b : BeamPart ℝ) (hb : b.l = l) (hphi : timoshenkoFactor b = 0) (time vel D : List ℝ)
    (load G p : ℝ) (irr : ℕ → ℝ) (hpath : movingLoadDistances time vel (some (D.headD 0)) = .ok D) (hD : RunsOn l m time.length D)
    (w : RailWheel ℝ) (hw : wheelOnRail t b time vel D load G p irr = .ok w) (k : ℕ) (hk : k < time.length) (node : ℕ → ℕ)
    (u : Spec.NodalField ℝ) :
    ∑ i ∈ range m, ∑ c, w.load i k c * u (node i) c = load * Spec.railDeflection l m node u (D.getD k 0) := by
  have hl := g.l_pos
  have hm := g.two
  have hcum := g.cum
  set cum := cumDistances (t.rail.map t.coords) with hcumdef
  have hclen : cum.length = m := by rw [hcum]; simp
  have hcget : ∀ k < m, cum.getD k 0 = k * l := fun k hk => by rw [hcum]; exact even_getD _ _ k hk
  have hinc : Increasing cum := by
    intro i j hij hj
    rw [hclen] at hj
    rw [hcget i (by omega), hcget j hj]
    have : (i : ℝ) < j := by exact_mod_cast hij
    exact mul_lt_mul_of_pos_right this hl
  have hsorted : cum.Pairwise (· < ·) := by
    rw [List.pairwise_iff_getElem]
    intro i j hi hj hij
    have := hinc i j hij hj
    rwa [List.getD_eq_getElem _ _ hi, List.getD_eq_getElem _ _ hj] at this
  have hne : D ≠ [] := by
    rintro rfl
    have := hD.length
    have := hD.pos
    simp at *
    omega
  obtain ⟨act, hact, halen, henc⟩ := C30_encloses_partial cum D (by omega) hinc hne
    (by rw [hcget 0 (by omega)]; simpa using hD.start)
    (by rw [hclen, hcget _ (by omega)]; exact hD.before) hD.forward
    (fun k hk => C30_short_steps cum l _ _
      (fun j hj => by
        rw [hclen] at hj
        rw [hcget j (by omega), hcget (j + 1) hj]
        push_cast
        linarith)
      (hD.slow k (by rw [hD.length] at hk; exact hk)))
  have hel : t.railElements.length = cum.length - 1 := by rw [g.elements_length, hclen]
  rw [← hel] at hact
  obtain ⟨hsort, hltm⟩ := activeElements_sorted _ _ _ _ hact
  have hk' : k < D.length := by rw [hD.length]; exact hk
  have ha : act.getD k 0 + 1 < m := by
    have := hltm _ (List.getElem_mem (by omega : k < act.length))
    rw [List.getD_eq_getElem _ _ (by omega)]
    rw [hel, hclen] at this
    omega
  have hloaded : loadedElements act = act := C30_loaded_nodes act hsort
  have hparts := contactParts_single t.railElements.length act hltm
  have hstop := hD.stop k hk
  have hlow : 0 ≤ D.getD k 0 := by
    have := hD.start
    rcases Nat.eq_zero_or_pos k with rfl | hk0
    · exact this
    · have h := List.pairwise_iff_getElem.1 hD.forward 0 k (by omega) hk' hk0
      rw [← List.getD_eq_getElem _ 0, ← List.getD_eq_getElem _ 0] at h
      linarith
  have henck := (henc k hk').1 (by rw [hclen, hcget _ (by omega)]; exact hstop)
  obtain ⟨-, he1, he2⟩ := henck
  rw [hcget _ (by omega)] at he1
  rw [hcget _ ha] at he2
  unfold wheelOnRail at hw
  simp only [hpath, bind, Except.bind, ← hcumdef, hact, hparts, Except.ok.injEq] at hw
  subst hw
  have hidx : ∀ j < m, t.rail.idxOf (t.rail.getD j 0) = j := fun j hj => g.idxOf j hj
  have hhead : cum.headD 0 = 0 := by
    have := hcget 0 (by omega)
    cases hc : cum with
    | nil => rfl
    | cons a as => rw [hc] at this; simpa using this
  have hlast : cum.getLastD 0 = ((m - 1 : ℕ) : ℝ) * l := by
    have := hcget (m - 1) (by omega)
    rw [← this, List.getLastD_eq_getLast?, List.getLast?_eq_getElem?, hclen, List.getD_eq_getElem?_getD]
  have hf1 : (filterLoad cum (D.map fun _ => load) D).1.getD k 0 = load := by
    unfold filterLoad
    simp only
    rw [List.getD_eq_getElem _ _ (by simpa using hk'), List.getElem_zipWith, List.getElem_map, ← List.getD_eq_getElem _ 0 hk']
    unfold filterData
    rw [hhead, hlast]
    simp only
    rw [if_neg (not_lt.2 hlow), if_neg (not_lt.2 hstop)]
  have hf2 : (filterLoad cum (D.map fun _ => load) D).2.getD k 0 = D.getD k 0 := by
    unfold filterLoad
    simp only
    rw [List.getD_eq_getElem _ _ (by simpa using hk'), List.getElem_map, ← List.getD_eq_getElem _ 0 hk']
    unfold filterLocation
    rw [hhead, hlast]
    simp only
    rw [if_neg (not_lt.2 hstop), if_neg (not_lt.2 hlow)]
  have hpts1 : (t.rail.map t.coords).map (fun p => p.1) = cum := by
    rw [hcum, g.rail_coords, List.map_map]
    rfl
  have hinterp : interpCoords cum (t.rail.map t.coords) (D.getD k 0) = (D.getD k 0, 0, 0) := by
    unfold interpCoords
    rw [hpts1, interpLinear_identity cum (by omega) hsorted, interpLinear_zero, interpLinear_zero]
    · intro p hp
      have := (List.of_mem_zip hp).2
      rw [g.rail_coords, List.map_map] at this
      obtain ⟨_, -, h⟩ := List.mem_map.1 this
      exact h.symm
    · intro p hp
      have := (List.of_mem_zip hp).2
      rw [g.rail_coords, List.map_map] at this
      obtain ⟨_, -, h⟩ := List.mem_map.1 this
      exact h.symm
  have hdist : distance3 (((act.getD k 0 : ℕ) : ℝ) * l, 0, 0) (D.getD k 0, 0, 0) = D.getD k 0 - act.getD k 0 * l := by
    unfold distance3
    simp only [sub_self]
    rw [show ((act.getD k 0 : ℝ) * l - D.getD k 0) ^ 2 + 0 ^ 2 + 0 ^ 2 = (D.getD k 0 - act.getD k 0 * l) ^ 2 by ring,
      Real.sqrt_sq (by linarith)]
  simp only [hloaded, g.element _ ha, hf1, hf2, hidx _ ha, hidx _ (by omega : act.getD k 0 < m), g.coords _ ha,
    g.coords _ (by omega : act.getD k 0 < m), hinterp, hdist, hb, hphi]
  rw [rotation_level _ _ _ (mul_le_mul_of_nonneg_right (by push_cast; linarith) hl.le)]
  rw [railDeflection_eq l hl m node u _ _ ha he1 (by exact_mod_cast he2), ← C21_euler hl.ne']
  set e := act.getD k 0
  have hg : ∀ x : ℝ, globalNodalLoads 0 0 l x (0, load, 0) ⟨0, 0⟩ =
      ![(0, load * yShape 0 l x 0, load * yShape 0 l x 1), (0, load * yShape 0 l x 2, load * yShape 0 l x 3)] := by
    intro x
    funext j
    have hrot : ∀ f : ℝ × ℝ × ℝ, rotatePoint 0 f = f := by intro f; simp [rotatePoint]
    unfold globalNodalLoads
    rw [hrot, neg_zero]
    simp only [hrot, localNodalLoads_vertical]
    fin_cases j <;> simp
  rw [hg]
  simp only [Fin.sum_univ_three, Matrix.cons_val_zero, Matrix.cons_val_one, Matrix.cons_val, scatterNodal]
  have hem : e < m := by omega
  simp only [ite_self, add_zero, zero_mul, zero_add, add_mul, ite_mul, Finset.sum_add_distrib, Finset.sum_ite_eq', Finset.mem_range, hem, ha,
    if_true]
  unfold Spec.interp4
  ring

end even

/-- **C125, the weight of the train.** In the coupled calculation of a ride the moving load of every wheel carries, at every time
index, the static load of the wheel at the place of the wheel: on every deflection of the rail its nodal forces do the work of the
static load on the deflection of the rail under the wheel. -/
theorem C125_wheel_loads {q : TrackRide} {m : ℕ} {l : ℝ} (v : q.Runs m l) (g : EvenRail q.track m l) (sys : SystemInput ℝ)
    (c : CoupledRun ℝ) (hc : q.coupledOn sys = .ok c) (w : ℕ) (hw : w < q.train.wheelList.length) (k : ℕ) (hk : k < q.time.length)
    (u : Spec.NodalField ℝ) :
    let wheel := q.train.wheelList.getD w (0, 0)
    let node := fun i => q.track.position (q.track.rail.getD i 0)
    ∑ i ∈ range m, ∑ d, (c.rail w).load i k d * u (node i) d =
      q.staticLoad wheel * Spec.railDeflection l m node u (Spec.wheelX q.time q.vel (q.startOf wheel) k) := by
  intro wheel node
  classical
  have hphi : timoshenkoFactor (q.beam l) = 0 := by
    unfold timoshenkoFactor
    exact if_neg (not_lt.mpr v.bending)
  have hmem : ∀ w (hw : w < q.train.wheelList.length), q.train.wheelList.getD w (0, 0) ∈ q.train.wheelList := by
    intro w hw
    rw [List.getD_eq_getElem _ _ hw]
    exact List.getElem_mem hw
  have hex : ∀ w, ∃ R : RailWheel ℝ, w < q.train.wheelList.length →
      wheelOnRail q.track (q.beam l) q.time q.vel (q.distances (q.train.wheelList.getD w (0, 0)))
        (q.staticLoad (q.train.wheelList.getD w (0, 0))) q.G q.p (q.irr w) = .ok R := by
    intro w
    by_cases hw : w < q.train.wheelList.length
    · obtain ⟨R, A, e, -⟩ := wheelOnRail_ok g (q.beam l) rfl q.time q.vel (q.distances (q.train.wheelList.getD w (0, 0)))
        (q.staticLoad (q.train.wheelList.getD w (0, 0))) q.G q.p (q.irr w) (load_path q v.samples _) (v.runsOn _ (hmem w hw))
      exact ⟨R, fun _ => e⟩
    · exact ⟨noWheel, fun h => absurd h hw⟩
  choose R hR using hex
  have hlength := g.length (some q.track.lengthElement)
  have hmap : ((List.range q.train.wheelList.length).zip q.train.wheelList).mapM (fun w =>
      wheelOnRail q.track (q.beam l) q.time q.vel (q.distances w.2) (q.staticLoad w.2) q.G q.p (q.irr w.1)) =
      .ok ((List.range q.train.wheelList.length).map R) := by
    rw [mapM_eq_map _ (fun w => R w.1)]
    · congr 1
      apply List.ext_getElem
      · simp
      · intro i h1 h2
        simp
    · intro x hx
      obtain ⟨i, hi, rfl⟩ := List.mem_iff_getElem.mp hx
      simp only [List.length_zip, List.length_range, min_self] at hi
      have := hR i hi
      rw [List.getD_eq_getElem _ _ hi] at this
      simpa using this
  unfold TrackRide.coupledOn at hc
  unfold TrackRide.beam at hmap
  simp only [hlength, v.check g, bind, Except.bind, Option.getD_some, hmap, Except.ok.injEq] at hc
  subst hc
  simp only
  rw [List.getD_eq_getElem _ _ (by simpa using hw), List.getElem_map, List.getElem_range]
  have := wheelOnRail_work g (q.beam l) rfl hphi q.time q.vel _ _ q.G q.p (q.irr w) (load_path q v.samples _) (v.runsOn _ (hmem w hw))
    (R w) (hR w hw) k hk node u
  rw [this, distances_getD q v.samples _ k hk]
  rfl

end Rose
