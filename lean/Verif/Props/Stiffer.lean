/-
C176: a track of stiffer parts never gives way more.
-/
import Verif.Props.Statics
import Verif.Props.CombinedUnknowns

set_option linter.unusedSectionVars false

namespace Rose
open Finset

/-! ### The rail -/

theorem shear_ratio {b b' : BeamPart ℝ} (hb : b.Valid) (hb' : b'.Valid) (hl : b'.l = b.l) (h : Spec.RailNoSofter b b') :
    b.E * b.I * timoshenkoFactor b' ≤ b'.E * b'.I * timoshenkoFactor b := by
  have hphi := timoshenkoFactor_nonneg b hb
  have e1 := hb.E; have e2 := hb.I; have e3 := hb.A; have e4 := hb.l; have e5 := hb.nu
  have f1 := hb'.E; have f2 := hb'.I; have f3 := hb'.A; have f5 := hb'.nu
  rcases h.kappa with h0 | ⟨k1, k2⟩
  · have : timoshenkoFactor b' = 0 := by simp [timoshenkoFactor, h0]
    rw [this, mul_zero]
    positivity
  · have k3 : 0 < b'.kappa := k1.trans_le k2
    have n1 : 0 < 1 + b.nu := by linarith
    have n2 : 0 < 1 + b'.nu := by linarith
    have F : ∀ c : BeamPart ℝ, c.Valid → 0 < c.kappa → timoshenkoFactor c = 24 * c.I * (1 + c.nu) / (c.l ^ 2 * c.A * c.kappa) := by
      intro c hc hk
      have c1 := hc.E; have c2 := hc.l; have c3 := hc.A
      have c5 : 1 + c.nu ≠ 0 := by have := hc.nu; linarith
      unfold timoshenkoFactor shearModulus
      rw [if_pos hk]
      field_simp
      ring
    rw [F b hb k1, F b' hb' k3, hl, mul_div_assoc', mul_div_assoc', div_le_div_iff₀ (by positivity) (by positivity)]
    have g1 : b.E * (b.A * b.kappa) ≤ b'.E * (b'.A * b'.kappa) :=
      mul_le_mul h.E (mul_le_mul h.A k2 k1.le f3.le) (by positivity) f1.le
    have g2 : (1 + b'.nu) * (b.E * (b.A * b.kappa)) ≤ (1 + b.nu) * (b'.E * (b'.A * b'.kappa)) :=
      mul_le_mul (by linarith [h.nu]) g1 (by positivity) n1.le
    have := mul_le_mul_of_nonneg_left g2 (by positivity : 0 ≤ 24 * b.I * b'.I * b.l ^ 2)
    nlinarith [this]

theorem rail_energy {b : BeamPart ℝ} (hb : b.Valid) (s1 : b.s1 = .inf) (s2 : b.s2 = .inf) (u : Fin 6 → ℝ) :
    Spec.energy b.stiffness u = b.E * b.A / b.l * (u 0 - u 3) ^ 2 + b.E * b.I / b.l * (u 2 - u 5) ^ 2 +
      b.E * b.I / (1 + timoshenkoFactor b) * (3 / b.l ^ 3 * (b.l * (u 2 + u 5) + 2 * (u 1 - u 4)) ^ 2) := by
  have hphi := timoshenkoFactor_nonneg b hb
  have hI := hb.I; have hl := hb.l
  have hp : (1 + timoshenkoFactor b) ≠ 0 := by positivity
  rw [BeamPart.stiffness, s1, s2]
  simp only [fixity]
  rw [beam_energy_formula hI.ne' hp hl.ne' (by norm_num)]
  field_simp
  ring

theorem rail_energy_mono {b b' : BeamPart ℝ} (hb : b.Valid) (hb' : b'.Valid) (hl : b'.l = b.l) (s1 : b.s1 = .inf) (s2 : b.s2 = .inf)
    (s1' : b'.s1 = .inf) (s2' : b'.s2 = .inf) (h : Spec.RailNoSofter b b') (u : Fin 6 → ℝ) :
    Spec.energy b.stiffness u ≤ Spec.energy b'.stiffness u := by
  have p1 := timoshenkoFactor_nonneg b hb
  have p2 := timoshenkoFactor_nonneg b' hb'
  have e1 := hb.E; have e2 := hb.I; have e3 := hb.A; have e4 := hb.l
  have f1 := hb'.E; have f2 := hb'.I; have f3 := hb'.A
  rw [rail_energy hb s1 s2, rail_energy hb' s1' s2', hl]
  have B : b.E * b.I ≤ b'.E * b'.I := mul_le_mul h.E h.I e2.le f1.le
  have A : b.E * b.A ≤ b'.E * b'.A := mul_le_mul h.E h.A e3.le f1.le
  have S : b.E * b.I / (1 + timoshenkoFactor b) ≤ b'.E * b'.I / (1 + timoshenkoFactor b') := by
    rw [div_le_div_iff₀ (by positivity) (by positivity)]
    linarith [shear_ratio hb hb' hl h]
  refine add_le_add (add_le_add ?_ ?_) ?_
  · exact mul_le_mul_of_nonneg_right (div_le_div_of_nonneg_right A e4.le) (sq_nonneg _)
  · exact mul_le_mul_of_nonneg_right (div_le_div_of_nonneg_right B e4.le) (sq_nonneg _)
  · exact mul_le_mul_of_nonneg_right S (by positivity)

/-! ### The track -/

theorem parts_sum_le {α : Type*} (l : List α) (f g : α → ℝ) (h : ∀ x ∈ l, f x ≤ g x) : (l.map f).sum ≤ (l.map g).sum :=
  List.sum_le_sum h

theorem zip_sum_le {α β : Type*} (F : α → β → ℝ) (R : α → α → Prop) (hF : ∀ a a' b, R a a' → F a b ≤ F a' b) :
    ∀ (l l' : List α) (m : List β), List.Forall₂ R l l' →
      ((l.zip m).map fun p => F p.1 p.2).sum ≤ ((l'.zip m).map fun p => F p.1 p.2).sum := by
  intro l l' m h
  induction h generalizing m with
  | nil => simp
  | @cons a a' l l' hr _ ih =>
    cases m with
    | nil => simp
    | cons b m =>
      simp only [List.zip_cons_cons, List.map_cons, List.sum_cons]
      exact add_le_add (hF a a' b hr) (ih m)

/-- One dof under a force: from the work of the force to its displacement. -/
theorem Spec.NoSofter.deeper {sys sys' : SystemInput ℝ} (h : HeldStill sys) (h' : HeldStill sys') (hn : sys'.n = sys.n)
    (hns : Spec.NoSofter sys sys') : Spec.NoDeeper sys sys' := by
  intro m hm d f times r r' R R' s hs
  have fit : ∀ l ∈ [(⟨[m], fun e => decide (e = d), .table fun _ t e => if e = d then f t else 0⟩ : TimedLoad ℝ)], Spec.LoadFits sys.n l := by
    intro l hl
    obtain rfl := List.mem_singleton.mp hl
    refine ⟨by simp, fun x hx => ?_⟩
    obtain rfl : x = m := by simpa using hx
    exact hm
  have fit' : ∀ l ∈ [(⟨[m], fun e => decide (e = d), .table fun _ t e => if e = d then f t else 0⟩ : TimedLoad ℝ)], Spec.LoadFits sys'.n l := by
    rw [hn]; exact fit
  obtain ⟨w1, w2⟩ := hns _ times r r' fit R R' s hs
  have hw : ∀ u : Spec.NodalField ℝ, Spec.loadWork (Spec.loadsAt
      [(⟨[m], fun e => decide (e = d), .table fun _ t e => if e = d then f t else 0⟩ : TimedLoad ℝ)] s) u = u m d * f s := by
    intro u
    unfold Spec.loadWork Spec.loadsAt
    simp
  rw [hw] at w1 w2
  rw [hw] at w2
  by_cases hf : f s = 0
  · have z : ∀ {S : SystemInput ℝ} {rows} (H : HeldStill S), S.n = sys.n → Spec.StaticResults S
        [(⟨[m], fun e => decide (e = d), .table fun _ t e => if e = d then f t else 0⟩ : TimedLoad ℝ)] times rows → Spec.shape rows s m d = 0 := by
      intro S rows H hS Q
      obtain ⟨a, e⟩ := H.equilibrium (by rw [hS]; exact fit) Q hs
      have h0 := e _ a
      rw [hw, hf, mul_zero] at h0
      exact congrFun ((H.energy _ a).2 h0 m (hS ▸ hm)) d
    rw [z h rfl R, z h' hn R']
  · have key : |Spec.shape r' s m d| * |f s| ≤ |Spec.shape r s m d| * |f s| := by
      rw [← abs_mul, ← abs_mul, abs_of_nonneg w1, abs_of_nonneg (w1.trans w2)]
      exact w2
    exact le_of_mul_le_mul_right key (abs_pos.mpr hf)

section combined
variable {H : Type*} [DecidableEq H] (hash : (Fin 3 → ℝ) → H) {r : ℕ} {d : ℝ} {segments : List (ℕ × ℝ)}

theorem SoundTrack.stiffer {ι : Type*} [DecidableEq ι] {c : CombinedTrack ι ℝ} {m : ℕ} {l : ℝ} (s : SoundTrack c m l) {v v' : TrackValues}
    {soils soils' : List (RodValues ℝ)} (hs : c.soils.length ≤ soils.length) (k : KeptValues l v soils)
    (hv' : ∀ w ∈ soils', ({ v' with soil := w } : TrackValues).Valid)
    (hpad : ∀ x ∈ c.sleepers, ∃ e ∈ c.pads, e.2 = x) {a b : ι} (ha : c.rail.head? = some a) (hb : c.rail.getLast? = some b)
    (hR : Spec.RailNoSofter v.rail v'.rail) (hp : v.pad.stiffness ≤ v'.pad.stiffness)
    (hsoil : List.Forall₂ (fun w w' => w.stiffness ≤ w'.stiffness) soils soils') :
    Spec.NoSofter (c.inputOf l v soils a b true) (c.inputOf l v' soils' a b true) ∧
      Spec.NoDeeper (c.inputOf l v soils a b true) (c.inputOf l v' soils' a b true) := by
  have ha' := List.mem_of_head? ha
  have hb' := List.mem_of_getLast? hb
  have hs' : c.soils.length ≤ soils'.length := by rw [← hsoil.length_eq]; exact hs
  have H := s.heldStill hs k.valid ha' hb'
  have H' := s.heldStill hs' hv' ha' hb'
  obtain ⟨w, hw⟩ := s.some_soil hs
  obtain ⟨w', hw'⟩ := s.some_soil hs'
  have V := k.valid w hw
  have V' := hv' w' hw'
  have main : Spec.NoSofter (c.inputOf l v soils a b true) (c.inputOf l v' soils' a b true) := by
    refine H.noSofter H' rfl ?_ ?_
    · intro u hu i hi d hrem
      refine hu i hi d ?_
      obtain ⟨st, hst⟩ := C106_succeeds _ H.mesh freshFlags
      obtain ⟨u1, u2, u3⟩ := s.unknowns hs k hpad a b ha hb st hst
      have hnone := (C106_unknowns_partial _ H.mesh H.aligned st hst i hi d).mpr hrem
      have hi' : i < c.meshNodes.length := hi
      have hpl : c.place c.meshNodes[i] = i := s.nodup.idxOf_getElem i hi'
      have hmem := List.getElem_mem hi'
      generalize c.meshNodes[i] = x at hpl hmem
      subst hpl
      rcases (s.mem x).1 hmem with hx | hx | ⟨p, hp, e, he, rfl⟩
      · obtain ⟨rfl | rfl, rfl⟩ := (u1 x hx d).mp hnone
        · exact Or.inl (s.side_supported _ _ hx)
        · exact Or.inl (s.side_supported_last _ _ hx)
      · right; right
        show |Spec.systemWork AssemblyPart.stiffness (c.partsOf l v' soils').parts _ _| ≤ _
        rw [s.sleeper_unstiff v' soils' x hx d ((u2 x hx d).mp hnone), abs_zero]
        norm_num
      · exact Or.inl (s.bottom_supported a b ha' hb' true p hp e he d)
    · intro u _
      show Spec.systemWork AssemblyPart.stiffness (c.partsOf l v soils).parts u u ≤
        Spec.systemWork AssemblyPart.stiffness (c.partsOf l v' soils').parts u u
      rw [track_stiffness _ (s.nonEmpty v soils), track_stiffness _ (s.nonEmpty v' soils')]
      refine add_le_add (add_le_add ?_ ?_) ?_
      · refine parts_sum_le _ _ _ fun e _ => ?_
        exact rail_energy_mono (b := { v.rail with l := l }) (b' := { v'.rail with l := l }) (V.beam s.l_pos) (V'.beam s.l_pos) rfl
          V.s1 V.s2 V'.s1 V'.s2 ⟨hR.E, hR.A, hR.I, hR.nu, hR.kappa⟩ _
      · exact parts_sum_le _ _ _ fun e _ => mul_le_mul_of_nonneg_right hp (sq_nonneg _)
      · have := zip_sum_le (fun (w : RodValues ℝ) (p : List (ι × ι) × List ι) =>
            ((c.placeAll p.1).map fun e => w.stiffness * (u e.2 1 - u e.1 1) ^ 2).sum) _
          (fun w w' p h => parts_sum_le _ _ _ fun e _ => mul_le_mul_of_nonneg_right h (sq_nonneg _)) soils soils' c.soils hsoil
        simpa [CombinedTrack.partsOf, Function.comp_def] using this
  exact ⟨main, main.deeper H H' rfl⟩

/-- **C176** Two tracks combined from the same segments: if rail, rail pads and the soil below every segment of the second are at least as stiff
as those of the first, the loads do no more work on the static results of the second, and a force never moves its own point further. The parts of
the first track have to be heavy and stiff enough to be kept as unknowns. -/
theorem C176_combined (g : GoodSegments r d segments) (length : ℝ) (v v' : TrackValues) (soils soils' : List (RodValues ℝ))
    (hs : segments.length ≤ soils.length) (k : KeptValues (d / r) v soils) (hv' : ∀ w ∈ soils', ({ v' with soil := w } : TrackValues).Valid)
    (hR : Spec.RailNoSofter v.rail v'.rail) (hp : v.pad.stiffness ≤ v'.pad.stiffness)
    (hsoil : List.Forall₂ (fun w w' => w.stiffness ≤ w'.stiffness) soils soils') :
    ∃ c inp inp', combinedTrack hash r d segments = .ok c ∧ c.system length v soils true = .ok inp ∧
      c.system length v' soils' true = .ok inp' ∧ Spec.NoSofter inp inp' ∧ Spec.NoDeeper inp inp' := by
  obtain ⟨c, hc, s, -, -, -, -, hpads, -, hlen, -⟩ := C136_structure hash g
  have hs' : c.soils.length ≤ soils.length := by omega
  have hs'' : c.soils.length ≤ soils'.length := by rw [← hsoil.length_eq]; exact hs'
  obtain ⟨a, b, ha, hb, hsys⟩ := s.system length v soils hs' true
  obtain ⟨a', b', ha', hb', hsys'⟩ := s.system length v' soils' hs'' true
  obtain rfl : a = a' := Option.some.inj (ha.symm.trans ha')
  obtain rfl : b = b' := Option.some.inj (hb.symm.trans hb')
  have hpad : ∀ x ∈ c.sleepers, ∃ e ∈ c.pads, e.2 = x := by
    intro x hx
    rw [← hpads] at hx
    exact List.mem_map.mp hx
  exact ⟨c, _, _, hc, hsys, hsys', s.stiffer hs' k hv' hpad ha hb hR hp hsoil⟩

end combined

/-- **C176** The same for generated tracks with at least two sleepers. -/
theorem C176_track {H : Type*} [DecidableEq H] (hash : (Fin 3 → ℝ) → H) (n r : ℕ) (hn : 2 ≤ n) (hr : 0 < r) (d h : ℝ)
    (hd : 1 / 1000000000 < d / r) (hh : 1 / 1000000000 < h) (t : HorizontalTrack ℝ)
    (ht : createHorizontalTrack hash n r d h = .ok t) (v v' : TrackValues) (hv : v.Valid) (hm : v.NonNeg) (hv' : v'.Valid)
    (hkeep : RailPresent { v.rail with l := d / r }) (hsl : 1 / 10 ^ 8 < v.sleeperMass) (hpd : 1 / 10 ^ 8 < v.pad.stiffness)
    (hR : Spec.RailNoSofter v.rail v'.rail) (hp : v.pad.stiffness ≤ v'.pad.stiffness) (hsoil : v.soil.stiffness ≤ v'.soil.stiffness) :
    ∃ inp inp', t.system v true = .ok inp ∧ t.system v' true = .ok inp' ∧ Spec.NoSofter inp inp' ∧ Spec.NoDeeper inp inp' := by
  have g : Generated hash n r d h t := ⟨by nlinarith, hd, hh, ht⟩
  have H := g.heldStill hn hv
  have H' := g.heldStill hn hv'
  have hl : 0 < d / r := by linarith
  have main : Spec.NoSofter (generatedInput t n r d v true) (generatedInput t n r d v' true) := by
    refine H.noSofter H' rfl ?_ ?_
    · intro u hu i hi c hrem
      refine hu i hi c ?_
      obtain ⟨st, hst⟩ := C106_succeeds _ H.mesh freshFlags
      have hnone := (C106_unknowns_partial _ H.mesh H.aligned st hst i hi c).mpr hrem
      obtain ⟨k, hk, rfl⟩ := g.position.2.1 i hi
      have hu := (g.unknowns v hv hm hkeep hsl hpd true st hst k hk c).mp hnone
      show Spec.Supported (generatedSupports t n r true) _ _ ∨ _ ∨ |Spec.systemWork AssemblyPart.stiffness (generatedParts t n r d v').parts _ _| ≤ _
      by_cases h1 : k < n * r
      · rw [if_pos h1] at hu
        exact Or.inl ((g.supported true k hk c).mpr (Or.inr hu))
      · rw [if_neg h1] at hu
        by_cases h2 : k < n * r + n
        · obtain ⟨j, hj, rfl⟩ : ∃ j < n, k = n * r + j := ⟨k - n * r, by omega, by omega⟩
          right; right
          rw [g.sleeper_unstiff v' j hj c (hu h2), abs_zero]
          norm_num
        · exact Or.inl ((g.supported true k hk c).mpr (Or.inl (by omega)))
    · intro u _
      show Spec.systemWork AssemblyPart.stiffness (generatedParts t n r d v).parts u u ≤
        Spec.systemWork AssemblyPart.stiffness (generatedParts t n r d v').parts u u
      rw [track_stiffness _ (g.nonEmpty v), track_stiffness _ (g.nonEmpty v')]
      refine add_le_add (add_le_add ?_ ?_) ?_
      · refine parts_sum_le _ _ _ fun e _ => ?_
        exact rail_energy_mono (b := { v.rail with l := d / r }) (b' := { v'.rail with l := d / r }) (hv.beam hl) (hv'.beam hl) rfl
          hv.s1 hv.s2 hv'.s1 hv'.s2 ⟨hR.E, hR.A, hR.I, hR.nu, hR.kappa⟩ _
      · exact parts_sum_le _ _ _ fun e _ => mul_le_mul_of_nonneg_right hp (sq_nonneg _)
      · simp only [generatedParts, List.map_cons, List.map_nil, List.sum_cons, List.sum_nil, add_zero]
        exact parts_sum_le _ _ _ fun e _ => mul_le_mul_of_nonneg_right hsoil (sq_nonneg _)
  exact ⟨_, _, g.system v true, g.system v' true, main, main.deeper H H' rfl⟩

/-- Three sleepers on soil of 180 MN/m and of 360 MN/m, with a heavier rail: the deflection under a growing force on the third node. -/
example : ∃ t, createHorizontalTrack (fun p : Fin 3 → ℝ => p) 3 2 (3 / 5) 1 = .ok t ∧
    ∃ inp inp', t.system exampleTrack true = .ok inp ∧
      t.system { exampleTrack with rail := { exampleTrack.rail with I := 30 / 1000000 }, soil := ⟨360 * 10 ^ 6, none, none⟩ } true = .ok inp' ∧
      Spec.NoDeeper inp inp' ∧ ∃ r r',
        Spec.StaticResults inp [⟨[2], fun e => decide (e = 1), .table fun _ t e => if e = 1 then -1000 * t else 0⟩] 10 r ∧
        Spec.StaticResults inp' [⟨[2], fun e => decide (e = 1), .table fun _ t e => if e = 1 then -1000 * t else 0⟩] 10 r' := by
  obtain ⟨t, ht, -⟩ := C48_structure (fun p : Fin 3 → ℝ => p) 3 2 (by norm_num) (3 / 5) 1
  have g : Generated (fun p : Fin 3 → ℝ => p) 3 2 (3 / 5) 1 t := ⟨by norm_num, by norm_num, by norm_num, ht⟩
  have hv' : TrackValues.Valid { exampleTrack with rail := { exampleTrack.rail with I := 30 / 1000000 }, soil := ⟨360 * 10 ^ 6, none, none⟩ } := by
    constructor <;> norm_num [exampleTrack]
  obtain ⟨inp, inp', h1, h2, -, h3⟩ := C176_track _ 3 2 (by norm_num) (by norm_num) _ _ (by norm_num) (by norm_num) t ht exampleTrack
    { exampleTrack with rail := { exampleTrack.rail with I := 30 / 1000000 }, soil := ⟨360 * 10 ^ 6, none, none⟩ } exampleTrack_valid
    exampleTrack_nonNeg hv' exampleTrack_railPresent (by norm_num [exampleTrack]) (by norm_num [exampleTrack])
    (by constructor <;> norm_num [exampleTrack]) (by norm_num [exampleTrack]) (by norm_num [exampleTrack])
  have fit : ∀ v : TrackValues, ∀ l ∈ [(⟨[2], fun e => decide (e = 1), .table fun _ t e => if e = 1 then -1000 * t else 0⟩ : TimedLoad ℝ)],
      Spec.LoadFits (generatedInput t 3 2 (3 / 5) v true).n l := by
    intro v l hl
    obtain rfl := List.mem_singleton.mp hl
    refine ⟨by simp, fun x hx => ?_⟩
    obtain rfl : x = 2 := by simpa using hx
    show 2 < 3 * 2 + 3 + 3
    norm_num
  have e1 := h1
  have e2 := h2
  rw [g.system _ true] at e1 e2
  injection e1 with e1
  injection e2 with e2
  obtain ⟨r, R⟩ := (g.heldStill (by norm_num) exampleTrack_valid).results _ 10 (fit _)
  obtain ⟨r', R'⟩ := (g.heldStill (by norm_num) hv').results _ 10 (fit _)
  exact ⟨t, ht, inp, inp', h1, h2, h3, r, r', e1 ▸ R, e2 ▸ R'⟩

end Rose
