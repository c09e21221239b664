import Verif.Volumes.Lemmas

/-! # Overlapping models, cutting meshes and infill meshes (C65, C66, C67) -/

namespace Verif.Volumes

/-! ## C65: models that overlap -/

section Carve

variable (ms : Nat → Mesh) (alternate : Bool) (n layers : Nat) (s : Slices)

theorem carve_disjoint (hbox : Boxed ms n layers s) (v w l : Nat) (hv : v < n) (hw : w < n) (hne : v ≠ w) (hl : l < layers)
    (cv : (ms v).carved = true) (cw : (ms w).carved = true) (p : Point) :
    ¬ (p ∈ carve ms alternate n layers s v l ∧ p ∈ carve ms alternate n layers s w l) := by
  rintro ⟨h1, h2⟩
  obtain ⟨z, hz⟩ := hbox
  have hsub := carveSome_subset ms alternate n layers hl (pairs n) (fun _ h => h) s
  have i1 := hz v hv l hl p (hsub v h1)
  have i2 := hz w hw l hl p (hsub w h2)
  obtain ⟨i, hi⟩ := List.mem_iff_getElem?.1 ((mem_ranked ms n v).2 hv)
  obtain ⟨j, hj⟩ := List.mem_iff_getElem?.1 ((mem_ranked ms n w).2 hw)
  have hin : i < n := by
    obtain ⟨h, _⟩ := List.getElem?_eq_some_iff.1 hi
    rwa [ranked_length] at h
  have hjn : j < n := by
    obtain ⟨h, _⟩ := List.getElem?_eq_some_iff.1 hj
    rwa [ranked_length] at h
  rcases Nat.lt_trichotomy i j with hij | rfl | hij
  · exact carveSome_disjoint ms alternate n layers hl p hj hi cw cv (within_hit i2 i1) (pairs n) (fun _ h => h)
      ((mem_pairs n j i).2 ⟨hij, hjn⟩) s ⟨h2, h1⟩
  · rw [hi] at hj
    exact hne (Option.some.inj hj)
  · exact carveSome_disjoint ms alternate n layers hl p hi hj cv cw (within_hit i1 i2) (pairs n) (fun _ h => h)
      ((mem_pairs n i j).2 ⟨hij, hin⟩) s ⟨h1, h2⟩

/-- After carving, a point of a layer belongs to exactly one of the models that covered it: the one with the lowest
order, of those with the same order the first one, or on even layers the last one if the order alternates. Missing: areas outside the bounding boxes
of the models (`C65_wider_counterexample`). -/
theorem C65_owner_partial (hbox : Boxed ms n layers s) (v l : Nat) (hv : v < n) (hl : l < layers) (cv : (ms v).carved = true)
    (p : Point) : p ∈ carve ms alternate n layers s v l ↔
      p ∈ s v l ∧ ∀ w < n, (ms w).carved = true → w ≠ v → p ∈ s w l → Better ms alternate l v w := by
  constructor
  · intro h
    have h0 := carveSome_subset ms alternate n layers hl (pairs n) (fun _ h => h) s v h
    refine ⟨h0, ?_⟩
    obtain ⟨b, hbn, ⟨cb, hb⟩, hbest⟩ := exists_best ms alternate n l (fun w => (ms w).carved = true ∧ p ∈ s w l) v hv ⟨cv, h0⟩
    have hb' := carveSome_best ms alternate n layers hl p b (pairs n) (fun _ h => h) s hb
      (fun w hw cw hwb hp => hbest w hw ⟨cw, hp⟩ hwb)
    by_cases hvb : v = b
    · subst hvb
      exact fun w hw cw hwb hp => hbest w hw ⟨cw, hp⟩ hwb
    · exact absurd ⟨h, hb'⟩ (carve_disjoint ms alternate n layers s hbox v b l hv hbn hvb hl cv cb p)
  · rintro ⟨h, hbest⟩
    exact carveSome_best ms alternate n layers hl p v (pairs n) (fun _ h => h) s h hbest

/-- After carving, no two models overlap. Missing: as above. -/
theorem C65_disjoint_partial (hbox : Boxed ms n layers s) (v w l : Nat) (hv : v < n) (hw : w < n) (hne : v ≠ w) (hl : l < layers)
    (cv : (ms v).carved = true) (cw : (ms w).carved = true) :
    carve ms alternate n layers s v l ∩ carve ms alternate n layers s w l = ∅ := by
  ext p
  simp only [Set.mem_inter_iff, Set.mem_empty_iff_false, iff_false]
  exact carve_disjoint ms alternate n layers s hbox v w l hv hw hne hl cv cw p

/-- Together the models cover the same area as before, whatever their bounding boxes. -/
theorem C65_union (l : Nat) (hl : l < layers) (p : Point) :
    (∃ v < n, (ms v).carved = true ∧ p ∈ carve ms alternate n layers s v l) ↔
      ∃ v < n, (ms v).carved = true ∧ p ∈ s v l := by
  constructor
  · rintro ⟨v, hv, cv, h⟩
    exact ⟨v, hv, cv, carveSome_subset ms alternate n layers hl (pairs n) (fun _ h => h) s v h⟩
  · rintro ⟨v, hv, cv, h⟩
    obtain ⟨b, hbn, ⟨cb, hb⟩, hbest⟩ := exists_best ms alternate n l (fun w => (ms w).carved = true ∧ p ∈ s w l) v hv ⟨cv, h⟩
    exact ⟨b, hbn, cb, carveSome_best ms alternate n layers hl p b (pairs n) (fun _ h => h) s hb
      (fun w hw cw hwb hp => hbest w hw ⟨cw, hp⟩ hwb)⟩

/-- All other meshes (infill meshes, support meshes, surfaces) stay as they are. -/
theorem C65_others (v l : Nat) (hv : (ms v).carved = false) : carve ms alternate n layers s v l = s v l := by
  have : ∀ (ps : List (Nat × Nat)) (s : Slices), carveSome ms alternate n layers ps s v l = s v l := by
    intro ps
    induction ps with
    | nil => intro s; rfl
    | cons x ps ih => intro s; exact (ih _).trans (carvePair_not ms alternate layers _ _ s v l hv)
  exact this _ s

end Carve

/-! ## C66: cutting meshes -/

section Cut

variable (ms : Nat → Mesh) (n layers : Nat) (s : Slices)

/-- Of a mesh that is cut, everything is left that no cutting mesh covers. -/
theorem C66_models (v l : Nat) (hv : v < n) (hl : l < layers) (hb : Base (ms v)) (p : Point) :
    p ∈ (cut ms n layers s).2 v l ↔ p ∈ s v l ∧ ∀ w < n, (ms w).cutting = true → p ∉ s w l := by
  rw [(cut_inv ms n layers s).base v hv l hl hb p]
  constructor
  · rintro ⟨h1, h2⟩
    exact ⟨h1, fun w hw hc hp => h2 w ⟨hw, hc, hp⟩⟩
  · rintro ⟨h1, h2⟩
    exact ⟨h1, fun w hw => h2 w hw.1 hw.2.1 hw.2.2⟩

/-- A cutting mesh that has no extruder of its own gets what it covers of the cut meshes, except for what a cutting
mesh of that kind before it covers. -/
theorem C66_keeps (v l : Nat) (hv : v < n) (hl : l < layers) (hk : Keeps (ms v)) (p : Point) :
    p ∈ (cut ms n layers s).2 v l ↔
      p ∈ s v l ∧ (∃ u < n, Base (ms u) ∧ p ∈ s u l) ∧ ∀ w < v, Keeps (ms w) → p ∉ s w l :=
  (cut_inv ms n layers s).keeps v hv l hl hk p

/-- A cutting mesh with its own extruder gets what it covers of the cut meshes, except for what any cutting mesh
without its own extruder, or a later one with its own extruder covers; and it is a model from then on. -/
theorem C66_recolour (v l : Nat) (hv : v < n) (hl : l < layers) (hr : Recolour (ms v)) (p : Point) :
    (p ∈ (cut ms n layers s).2 v l ↔
      p ∈ s v l ∧ (∃ u < n, Base (ms u) ∧ p ∈ s u l) ∧
        ∀ w < n, (ms w).cutting = true → p ∈ s w l → Recolour (ms w) ∧ w ≤ v) ∧
      Base ((cut ms n layers s).1 v) := by
  constructor
  · rw [(cut_inv ms n layers s).recolour v hv l hl hr p]
    constructor
    · rintro ⟨h1, h2, h3⟩
      refine ⟨h1, h2, fun w hw hc hp => ?_⟩
      obtain ⟨a, b⟩ := h3 w ⟨hw, hc, hp⟩
      exact ⟨by_contra fun hx => a ⟨hc, hx⟩, b⟩
    · rintro ⟨h1, h2, h3⟩
      refine ⟨h1, h2, fun w hw => ?_⟩
      obtain ⟨a, b⟩ := h3 w hw.1 hw.2.1 hw.2.2
      exact ⟨fun hx => hx.2 a, b⟩
  · rw [(cut_inv ms n layers s).meshes v, if_pos ⟨hv, hr.1, hr.2.1⟩]
    exact ⟨rfl, hr.2.2⟩

/-- Cutting only hands areas over: a point is covered by a cut or cutting mesh afterwards exactly if it was covered by
a cut mesh before. -/
theorem C66_union (l : Nat) (hl : l < layers) (p : Point) :
    (∃ v < n, (Base (ms v) ∨ (ms v).cutting = true) ∧ p ∈ (cut ms n layers s).2 v l) ↔
      ∃ v < n, Base (ms v) ∧ p ∈ s v l := by
  have hinv := cut_inv ms n layers s
  constructor
  · rintro ⟨v, hv, hb | hc, h⟩
    · exact ⟨v, hv, hb, ((C66_models ms n layers s v l hv hl hb p).1 h).1⟩
    · by_cases hr : Recolour (ms v)
      · exact ((C66_recolour ms n layers s v l hv hl hr p).1.1 h).2.1
      · exact ((C66_keeps ms n layers s v l hv hl ⟨hc, hr⟩ p).1 h).2.1
  · rintro ⟨u, hu, hb, hp⟩
    classical
    by_cases hk : ∃ w, w < n ∧ Keeps (ms w) ∧ p ∈ s w l
    · have hm := Nat.find_spec hk
      refine ⟨Nat.find hk, hm.1, .inr hm.2.1.1, ?_⟩
      rw [C66_keeps ms n layers s _ l hm.1 hl hm.2.1 p]
      exact ⟨hm.2.2, ⟨u, hu, hb, hp⟩, fun w hw hwk hpw => Nat.find_min hk hw ⟨by omega, hwk, hpw⟩⟩
    · have := (holder_iff ms n layers s le_rfl hinv hl p).2 ⟨⟨u, hu, hb, hp⟩, fun w hw hwk hpw => hk ⟨w, hw, hwk, hpw⟩⟩
      obtain ⟨w, hw, he, hpw⟩ := this
      refine ⟨w, hw, ?_, hpw⟩
      rcases (eligible_iff ms n layers s hinv w).1 he with h | h
      · exact .inl h
      · exact .inr h.2.1

/-- No point belongs to two cutting meshes, or to a cutting mesh and a mesh that was cut. -/
theorem C66_disjoint (v w l : Nat) (hv : v < n) (hw : w < n) (hne : v ≠ w) (hl : l < layers) (hc : (ms v).cutting = true)
    (hcw : (ms w).cutting = true ∨ Base (ms w)) : (cut ms n layers s).2 v l ∩ (cut ms n layers s).2 w l = ∅ := by
  have key : ∀ x < n, (ms x).cutting = true → ∀ p, p ∈ (cut ms n layers s).2 x l → p ∈ s x l := by
    intro x hx hcx p h
    by_cases hr : Recolour (ms x)
    · exact ((C66_recolour ms n layers s x l hx hl hr p).1.1 h).1
    · exact ((C66_keeps ms n layers s x l hx hl ⟨hcx, hr⟩ p).1 h).1
  ext p
  simp only [Set.mem_inter_iff, Set.mem_empty_iff_false, iff_false]
  rintro ⟨h1, h2⟩
  have p1 := key v hv hc p h1
  rcases hcw with hcw | hb
  · have p2 := key w hw hcw p h2
    by_cases hr : Recolour (ms v)
    · obtain ⟨r1, r2⟩ := ((C66_recolour ms n layers s v l hv hl hr p).1.1 h1).2.2 w hw hcw p2
      obtain ⟨r3, r4⟩ := ((C66_recolour ms n layers s w l hw hl r1 p).1.1 h2).2.2 v hv hc p1
      omega
    · have k1 := (C66_keeps ms n layers s v l hv hl ⟨hc, hr⟩ p).1 h1
      by_cases hr' : Recolour (ms w)
      · exact hr (((C66_recolour ms n layers s w l hw hl hr' p).1.1 h2).2.2 v hv hc p1).1
      · have k2 := (C66_keeps ms n layers s w l hw hl ⟨hcw, hr'⟩ p).1 h2
        rcases Nat.lt_or_gt_of_ne hne with h | h
        · exact k2.2.2 v h ⟨hc, hr⟩ p1
        · exact k1.2.2 w h ⟨hcw, hr'⟩ p2
  · exact ((C66_models ms n layers s w l hw hl hb p).1 h2).2 v hv hc p1

end Cut

/-! ## C67: infill meshes -/

/-- An infill mesh removes exactly its outline from the infill of the meshes before it. -/
theorem C67_rest (ps : List Part) (ms : List (List Part)) (hps : ∀ q ∈ ps, q.Ok) (hms : ∀ m ∈ ms, ∀ q ∈ m, q.Ok) :
    (claimMeshes ps ms).2 = ms.map fun m => m.map fun q => { q with own := q.own \ outlineOf ps } :=
  (claimMeshes_spec ps hps ms hms).1

/-- And it gets exactly what it removes: every point of the infill stays in as many areas as before. -/
theorem C67_conserve (ps : List Part) (ms : List (List Part)) (hps : ∀ q ∈ ps, q.Ok) (hms : ∀ m ∈ ms, ∀ q ∈ m, q.Ok)
    (p : Point) : times p (claimMeshes ps ms).1 + times p (infills (claimMeshes ps ms).2) = times p (infills ms) :=
  (claimMeshes_spec ps hps ms hms).2 p

/-- Whatever infill meshes there are, no point gets infill more often than there are models that cover it: once, if the
models do not overlap. -/
theorem C67_once (walls : Nat → List Region → List Part) (hw : WallsOk walls) (l : List (Nat × Bool × List Part))
    (hl : ∀ x ∈ l, ∀ q ∈ x.2.2, q.Ok) (p : Point) : times p (infills (process walls l [])) ≤
      times p (((l.filter fun x => !x.2.1).flatMap fun x => x.2.2).map Part.outline) := by
  have key : ∀ (l : List (Nat × Bool × List Part)) (done : List (List Part)), (∀ x ∈ l, ∀ q ∈ x.2.2, q.Ok) →
      (∀ m ∈ done, ∀ q ∈ m, q.Ok) → times p (infills (process walls l done)) ≤
        times p (infills done) + times p (((l.filter fun x => !x.2.1).flatMap fun x => x.2.2).map Part.outline) := by
    intro l
    induction l with
    | nil => intro done _ _; simp [process]
    | cons x l ih =>
      intro done hl hdone
      obtain ⟨i, infill, ps⟩ := x
      have hps := hl (i, infill, ps) (by simp)
      have hl' := fun y (hy : y ∈ l) => hl y (List.mem_cons_of_mem _ hy)
      have happ : ∀ a b, infills (a ++ [b]) = infills a ++ b.map Part.own := by
        intro a b
        simp [infills]
      unfold process
      cases infill with
      | true =>
        rw [if_pos rfl]
        dsimp only
        obtain ⟨c1, c2⟩ := claimMeshes_spec ps hps done hdone
        refine (ih _ hl' ?_).trans ?_
        · intro m hm q hq
          rcases List.mem_append.1 hm with hm | hm
          · rw [c1] at hm
            obtain ⟨m', hm', rfl⟩ := List.mem_map.1 hm
            obtain ⟨q', hq', rfl⟩ := List.mem_map.1 hq
            have := hdone m' hm' q' hq'
            exact ⟨this.1, fun x hx => this.2 x hx.1⟩
          · rw [List.mem_singleton] at hm
            subst hm
            exact (hw i _).1 q hq
        · rw [happ, times_append]
          have h1 := c2 p
          have h2 := (hw i (claimMeshes ps done).1).2 p
          rw [List.filter_cons_of_neg (by simp)]
          omega
      | false =>
        rw [if_neg (by simp)]
        refine (ih _ hl' ?_).trans ?_
        · intro m hm q hq
          rcases List.mem_append.1 hm with hm | hm
          · exact hdone m hm q hq
          · rw [List.mem_singleton] at hm
            subst hm
            exact (hw i _).1 q hq
        · rw [happ, times_append]
          have h2 := (hw i (ps.map Part.outline)).2 p
          rw [List.filter_cons_of_pos (by simp), List.flatMap_cons, List.map_append, times_append]
          dsimp only
          omega
  have := key l [] hl (by simp)
  simpa [infills, times] using this

end Verif.Volumes
