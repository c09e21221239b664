import Verif.Cli.SceneLemmas

/-! # Loading definition files -/

namespace Verif.Cli

theorem find_lookup (fs : Fields) (name : Str) : fs.find name = fs.list.lookup name := by
  match fs with
  | .nil => rfl
  | .cons k v rest =>
    unfold Fields.find Fields.list
    rw [List.lookup_cons, find_lookup rest]
    by_cases h : k = name
    · subst h; simp
    · rw [if_neg h, beq_false_of_ne (Ne.symm h)]

def noForce : Flags := ⟨false, false⟩

theorem children_find (f : Flags) (fs : Fields) (env : Env) : children f fs env = match fs.find "children".toList with
    | some v => settings f v env
    | none => .ok env := by
  match fs with
  | .nil => rfl
  | .cons k v rest =>
    unfold children Fields.find
    split
    · rfl
    · exact children_find f rest env

theorem members_gives {l : List (Str × Json)} {a : List (Str × Str)} (h : Gives l a) (fs : Fields) (hl : fs.list = l) (env : Env) :
    members noForce fs env = .ok (env.adds a) := by
  induction h generalizing fs env with
  | nil =>
    cases fs with
    | nil => rfl
    | cons k v rest => simp [Fields.list] at hl
  | @category k fs' cs rest a b hm _ _ ih1 ih2 =>
    cases fs with
    | nil => simp [Fields.list] at hl
    | cons k' v rest' =>
      simp only [Fields.list, List.cons.injEq, Prod.mk.injEq] at hl
      obtain ⟨⟨rfl, rfl⟩, rfl⟩ := hl
      have hf : fs'.find "children".toList = some (.obj cs) := (find_lookup _ _).trans hm
      unfold members setting
      rw [children_find, hf]
      dsimp only
      unfold settings
      rw [ih1 cs rfl env]
      simp only [Run.bind_ok, Option.isSome_some, noForce, Bool.not_false, Bool.and_self, if_true, Run.pure_eq]
      have := ih2 rest' rfl (env.adds a)
      simp only [noForce] at this
      rw [this]
      simp [Env.adds, List.foldl_append]
  | @value k fs' v t rest b hc hd ht _ ih =>
    cases fs with
    | nil => simp [Fields.list] at hl
    | cons k' v' rest' =>
      simp only [Fields.list, List.cons.injEq, Prod.mk.injEq] at hl
      obtain ⟨⟨rfl, rfl⟩, rfl⟩ := hl
      have hf : fs'.find "children".toList = none := (find_lookup _ _).trans hc
      have hf2 : fs'.find "default_value".toList = some v := (find_lookup _ _).trans hd
      unfold members setting
      rw [children_find, hf]
      have := ih rest' rfl (env.add k' t)
      unfold ownValue
      simp only [Run.bind_ok, hf2, ht, Option.isSome_none, Bool.false_and, Bool.false_eq_true, if_false, Run.pure_eq, this]
      rfl
  | @none k fs' rest b hc hd _ ih =>
    cases fs with
    | nil => simp [Fields.list] at hl
    | cons k' v' rest' =>
      simp only [Fields.list, List.cons.injEq, Prod.mk.injEq] at hl
      obtain ⟨⟨rfl, rfl⟩, rfl⟩ := hl
      have hf : fs'.find "children".toList = none := (find_lookup _ _).trans hc
      have hf2 : fs'.find "default_value".toList = none := (find_lookup _ _).trans hd
      have hown : ownValue noForce fs' k' env = env := by
        unfold ownValue
        rw [hf2]
        dsimp only
        split
        · simp [noForce]
        · rfl
      unfold members setting
      rw [children_find, hf]
      simp only [Run.bind_ok, Option.isSome_none, Bool.false_and, Bool.false_eq_true, if_false, Run.pure_eq, hown]
      exact ih rest' rfl env
  | @strange k fs' v rest b hc hd ht _ ih =>
    cases fs with
    | nil => simp [Fields.list] at hl
    | cons k' v' rest' =>
      simp only [Fields.list, List.cons.injEq, Prod.mk.injEq] at hl
      obtain ⟨⟨rfl, rfl⟩, rfl⟩ := hl
      have hf : fs'.find "children".toList = none := (find_lookup _ _).trans hc
      have hf2 : fs'.find "default_value".toList = some v := (find_lookup _ _).trans hd
      unfold members setting
      rw [children_find, hf]
      unfold ownValue
      simp only [Run.bind_ok, hf2, ht, Option.isSome_none, Bool.false_and, Bool.false_eq_true, if_false, Run.pure_eq]
      exact ih rest' rfl env
  | @other k v rest b hv _ ih =>
    cases fs with
    | nil => simp [Fields.list] at hl
    | cons k' v' rest' =>
      simp only [Fields.list, List.cons.injEq, Prod.mk.injEq] at hl
      obtain ⟨⟨rfl, rfl⟩, rfl⟩ := hl
      unfold members
      cases v' with
      | obj fs => exact absurd rfl (hv fs)
      | _ =>
        unfold setting
        rw [Run.bind_ok]
        exact ih rest' rfl env

theorem loadSection_good {fs : Fields} {name : String} {a : List (Str × Str)} (h : Section fs name a) {s : Store} {asgs : List Assignment}
    {o : Owner} (hg : Good s.scene asgs) (ho : (s.scene.env o).isSome = true) :
    ∃ s', loadSection noForce name.toList fs (s.scene.target o) s = .ok s' ∧ Good s'.scene (asgs ++ a.map fun x => (o, x.1, x.2)) ∧
      s'.scene.frame = s.scene.frame ∧ s'.scene.extruders.length = s.scene.extruders.length ∧ s'.dirs = s.dirs := by
  cases h with
  | @here f a hm hgv =>
    obtain ⟨e, he⟩ := Option.isSome_iff_exists.mp ho
    obtain ⟨s', h1, h2, h3, h4⟩ := hg.adds he a
    refine ⟨{ s with scene := s' }, ?_, h2, h3, h4, rfl⟩
    unfold loadSection
    rw [show fs.find name.toList = some (.obj f) from (find_lookup _ _).trans hm]
    dsimp only
    rw [read_target he, Run.bind_ok, members_gives hgv f rfl e, Run.bind_ok, h1]
    rfl
  | absent hm =>
    refine ⟨s, ?_, by simpa using hg, rfl, rfl, rfl⟩
    unfold loadSection
    rw [find_lookup]
    split
    · rename_i o' ho'
      exact absurd ho' (hm o')
    · rfl

theorem find_definition {w : World} {dirs : List Str} {id p : Str} (h : Finds w dirs id p) : findDefinition w dirs id = some p := by
  obtain ⟨before, dir, after, rfl, rfl, h1, h2⟩ := h
  unfold findDefinition
  rw [List.map_append, List.find?_append, List.map_cons, List.find?_cons]
  have hn : (before.map fun d => w.join d (id ++ ".def.json".toList)).find? (fun c => (w.file c).isSome) = none := by
    rw [List.find?_eq_none]
    intro c hc
    obtain ⟨d, hd, rfl⟩ := List.mem_map.mp hc
    rw [h2 d hd]
    simp
  rw [hn]
  cases hf : w.file (w.join dir (id ++ ".def.json".toList)) with
  | none => exact absurd hf h1
  | some x => simp

theorem find_none {w : World} {dirs : List Str} {id : Str} (h : FindsNone w dirs id) : findDefinition w dirs id = none := by
  unfold findDefinition
  rw [List.find?_eq_none]
  intro c hc
  obtain ⟨d, hd, rfl⟩ := List.mem_map.mp hc
  rw [h d hd]
  simp

/-- What loading does to the scene. -/
structure Post (s s' : Store) (o : Owner) (asgs : List Assignment) (effs : List Effect) (dirs' : List Str) : Prop where
  good : Good s'.scene (asgs ++ effs.filterMap (Effect.assignment o))
  frame : s'.scene.frame = s.scene.frame
  length : s'.scene.extruders.length = (effs.filterMap Effect.needed).foldl max s.scene.extruders.length
  dirs : s'.dirs = dirs'

/-- The scene before loading. -/
structure Pre (s : Store) (o : Owner) (asgs : List Assignment) (effs : List Effect) (dirs : List Str) : Prop where
  good : Good s.scene asgs
  dirs : s.dirs = dirs
  exist : (s.scene.env o).isSome = true
  len : s.scene.extruders.length ≤ s.scene.cap
  cap : ∀ n ∈ effs.filterMap Effect.needed, n ≤ s.scene.cap

theorem foldl_max_ge (l : List Nat) (a : Nat) : a ≤ l.foldl max a := by
  induction l generalizing a with
  | nil => exact le_rfl
  | cons x l ih => exact le_trans (le_max_left a x) (ih _)

theorem foldl_max_le (l : List Nat) (a b : Nat) (ha : a ≤ b) (h : ∀ n ∈ l, n ≤ b) : l.foldl max a ≤ b := by
  induction l generalizing a with
  | nil => exact ha
  | cons x l ih => exact ih _ (max_le ha (h x List.mem_cons_self)) fun n hn => h n (List.mem_cons_of_mem _ hn)

theorem cap_frame {s s' : Scene} (h : s'.frame = s.frame) : s'.cap = s.cap := congrArg (fun x => x.2.2.1) h
theorem gen_frame {s s' : Scene} (h : s'.frame = s.frame) : s'.gen = s.gen := congrArg (fun x => x.2.1) h

/-- After a first part everything is ready for the second. -/
theorem Post.pre {s s' : Store} {o : Owner} {asgs : List Assignment} {e1 e2 : List Effect} {d d1 : List Str}
    (hp : Pre s o asgs (e1 ++ e2) d) (h : Post s s' o asgs e1 d1) : Pre s' o (asgs ++ e1.filterMap (Effect.assignment o)) e2 d1 where
  good := h.good
  dirs := h.dirs
  exist := env_isSome_mono h.frame (by rw [h.length]; exact foldl_max_ge _ _) hp.exist
  len := by
    rw [h.length, cap_frame h.frame]
    refine foldl_max_le _ _ _ hp.len fun n hn => hp.cap n ?_
    rw [List.filterMap_append]
    exact List.mem_append_left _ hn
  cap := by
    intro n hn
    rw [cap_frame h.frame]
    refine hp.cap n ?_
    rw [List.filterMap_append]
    exact List.mem_append_right _ hn

theorem Pre.left {s : Store} {o : Owner} {asgs : List Assignment} {e1 e2 : List Effect} {d : List Str} (hp : Pre s o asgs (e1 ++ e2) d) :
    Pre s o asgs e1 d where
  good := hp.good
  dirs := hp.dirs
  exist := hp.exist
  len := hp.len
  cap := fun n hn => hp.cap n (by rw [List.filterMap_append]; exact List.mem_append_left _ hn)

theorem Post.trans {s s1 s2 : Store} {o : Owner} {asgs : List Assignment} {e1 e2 : List Effect} {d1 d2 : List Str}
    (h1 : Post s s1 o asgs e1 d1) (h2 : Post s1 s2 o (asgs ++ e1.filterMap (Effect.assignment o)) e2 d2) : Post s s2 o asgs (e1 ++ e2) d2 where
  good := by rw [List.filterMap_append, ← List.append_assoc]; exact h2.good
  frame := h2.frame.trans h1.frame
  length := by rw [h2.length, h1.length, List.filterMap_append, List.foldl_append]
  dirs := h2.dirs

theorem filterMap_set (a : List (Str × Str)) (o : Owner) :
    (a.map fun x => Effect.set none x.1 x.2).filterMap (Effect.assignment o) = a.map fun x => (o, x.1, x.2) := by
  induction a with
  | nil => rfl
  | cons x a ih => simp only [List.map_cons, List.filterMap_cons, Effect.assignment, ih]

theorem filterMap_set_needed (a : List (Str × Str)) : (a.map fun x => Effect.set none x.1 x.2).filterMap Effect.needed = [] := by
  induction a with
  | nil => rfl
  | cons x a ih => simp only [List.map_cons, List.filterMap_cons, Effect.needed, ih]

theorem filterMap_in (e : List Effect) (n : Nat) (o : Owner) :
    (e.map (Effect.inExtruder n)).filterMap (Effect.assignment o) = e.filterMap (Effect.assignment (.extruder n)) := by
  induction e with
  | nil => rfl
  | cons x e ih =>
    rw [List.map_cons, List.filterMap_cons, List.filterMap_cons, ih]
    cases x with
    | set m k v => cases m <;> rfl
    | need m => rfl

theorem filterMap_in_needed (e : List Effect) (n : Nat) :
    (e.map (Effect.inExtruder n)).filterMap Effect.needed = e.filterMap Effect.needed := by
  induction e with
  | nil => rfl
  | cons x e ih =>
    rw [List.map_cons, List.filterMap_cons, List.filterMap_cons, ih]
    cases x with
    | set m k v => cases m <;> rfl
    | need m => rfl

/-- A section of a document. -/
theorem section_post {fs : Fields} {name : String} {a : List (Str × Str)} (h : Section fs name a) {s : Store} {asgs : List Assignment}
    {o : Owner} {d : List Str} (hp : Pre s o asgs (a.map fun x => Effect.set none x.1 x.2) d) :
    ∃ s', loadSection noForce name.toList fs (s.scene.target o) s = .ok s' ∧ Post s s' o asgs (a.map fun x => Effect.set none x.1 x.2) d := by
  obtain ⟨s', h1, h2, h3, h4, h5⟩ := loadSection_good h hp.good hp.exist
  exact ⟨s', h1, by rw [filterMap_set]; exact h2, h3, by rw [filterMap_set_needed, h4]; rfl, h5.trans hp.dirs⟩

/-- More extruders. -/
theorem need_post {w : World} {n : Nat} {s : Store} {asgs : List Assignment} {o : Owner} {e : List Effect} {d : List Str}
    (hp : Pre s o asgs (.need n :: e) d) :
    Post s { s with scene := s.scene.extend w (n + 1 - s.scene.extruders.length) } o asgs [.need n] d := by
  obtain ⟨h1, h2, h3⟩ := hp.good.extendTo (w := w) (n + 1) hp.len (hp.cap (n + 1) (by simp [Effect.needed]))
  exact ⟨by rw [show [Effect.need n].filterMap (Effect.assignment o) = [] from rfl, List.append_nil]; exact h1, h2, by simpa [Effect.needed] using h3, hp.dirs⟩

/-- Loading does what `Loads` says. -/
def LoadsTo (w : World) (dirs : List Str) (path : Str) (effs : List Effect) (dirs' : List Str) : Prop :=
  ∃ f0, ∀ s o asgs, Pre s o asgs effs dirs →
    ∃ s', (∀ fuel, f0 ≤ fuel → load w noForce fuel (s.scene.target o) path s = .ok (true, s')) ∧ Post s s' o asgs effs dirs'

def InheritsTo (w : World) (dirs : List Str) (fs : Fields) (effs : List Effect) (dirs' : List Str) : Prop :=
  ∃ f0, ∀ s o asgs, Pre s o asgs effs dirs →
    ∃ s', (∀ fuel, f0 ≤ fuel → loadParent w (load w noForce fuel) fs (s.scene.target o) s = .ok (true, s')) ∧ Post s s' o asgs effs dirs'

def TrainsTo (w : World) (dirs : List Str) (l : List (Str × Json)) (effs : List Effect) (dirs' : List Str) : Prop :=
  ∃ f0, ∀ fs : Fields, fs.list = l → ∀ s o asgs, Pre s o asgs effs dirs →
    ∃ s', (∀ fuel, f0 ≤ fuel → loadTrains w (load w noForce fuel) fs s = .ok s') ∧ Post s s' o asgs effs dirs'

theorem Post.refl {s : Store} {o : Owner} {asgs : List Assignment} {d : List Str} (hp : Pre s o asgs [] d) : Post s s o asgs [] d :=
  ⟨by simpa using hp.good, rfl, rfl, hp.dirs⟩

theorem metadata_trains {w : World} {fs : Fields} {l : List (Str × Json)} (h : TrainList fs l) {dirs dirs' : List Str} {effs : List Effect}
    (ht : TrainsTo w dirs l effs dirs') : ∃ f0, ∀ s o asgs, Pre s o asgs effs dirs →
    ∃ s', (∀ fuel, f0 ≤ fuel → loadMetadata w (load w noForce fuel) fs s = .ok s') ∧ Post s s' o asgs effs dirs' := by
  obtain ⟨f0, ht⟩ := ht
  refine ⟨f0, fun s o asgs hp => ?_⟩
  cases h with
  | @here md tr h1 h2 =>
    obtain ⟨s', h3, h4⟩ := ht tr rfl s o asgs hp
    refine ⟨s', fun fuel hf => ?_, h4⟩
    unfold loadMetadata
    rw [show fs.find "metadata".toList = some (.obj md) from (find_lookup _ _).trans h1]
    dsimp only
    rw [show md.find "machine_extruder_trains".toList = some (.obj tr) from (find_lookup _ _).trans h2]
    exact h3 fuel hf
  | @noTrains md h1 h2 =>
    obtain ⟨s', h3, h4⟩ := ht .nil rfl s o asgs hp
    refine ⟨s', fun fuel hf => ?_, h4⟩
    unfold loadMetadata
    rw [show fs.find "metadata".toList = some (.obj md) from (find_lookup _ _).trans h1]
    dsimp only
    rw [find_lookup]
    split
    · rename_i tr htr
      exact absurd htr (h2 tr)
    · exact h3 fuel hf
  | noMetadata h1 =>
    obtain ⟨s', h3, h4⟩ := ht .nil rfl s o asgs hp
    refine ⟨s', fun fuel hf => ?_, h4⟩
    unfold loadMetadata
    rw [find_lookup]
    split
    · rename_i md hmd
      exact absurd hmd (h1 md)
    · exact h3 fuel hf

theorem loads_file {w : World} {dirs : List Str} {path : Str} {fs : Fields} {e1 e2 : List Effect} {d1 d2 : List Str} {trains : List (Str × Json)}
    {a b : List (Str × Str)} (hf : w.file path = some (some (.obj fs))) (hi : InheritsTo w (dirs ++ [w.parentPath path]) fs e1 d1)
    (htl : TrainList fs trains) (ht : TrainsTo w d1 trains e2 d2) (hs : Section fs "settings" a) (hov : Section fs "overrides" b) :
    LoadsTo w dirs path (e1 ++ e2 ++ (a ++ b).map fun x => Effect.set none x.1 x.2) d2 := by
  obtain ⟨f1, hi⟩ := hi
  obtain ⟨f2, ht⟩ := metadata_trains htl ht
  refine ⟨max f1 f2 + 1, fun s o asgs hp => ?_⟩
  have hp0 : Pre { s with dirs := s.dirs ++ [w.parentPath path] } o asgs
      (e1 ++ (e2 ++ ((a.map fun x => Effect.set none x.1 x.2) ++ (b.map fun x => Effect.set none x.1 x.2)))) (dirs ++ [w.parentPath path]) :=
    ⟨hp.good, by simp [hp.dirs], hp.exist, hp.len, by
      have := hp.cap
      rw [List.map_append, List.append_assoc] at this
      exact this⟩
  obtain ⟨s1, hl1, p1⟩ := hi _ o asgs hp0.left
  have hp1 := Post.pre hp0 p1
  obtain ⟨s2, hl2, p2⟩ := ht s1 o _ hp1.left
  have hp2 := Post.pre hp1 p2
  obtain ⟨s3, hl3, p3⟩ := section_post hs hp2.left
  have hp3 := Post.pre hp2 p3
  obtain ⟨s4, hl4, p4⟩ := section_post hov hp3
  have ht1 : s2.scene.target o = s.scene.target o := target_frame (p2.frame.trans p1.frame) o
  have ht2 : s3.scene.target o = s.scene.target o := (target_frame p3.frame o).trans ht1
  refine ⟨s4, fun fuel hfuel => ?_, ?_⟩
  · obtain ⟨fuel, rfl⟩ : ∃ k, fuel = k + 1 := ⟨fuel - 1, by omega⟩
    have hl1 := hl1 fuel (by omega)
    have hl2 := hl2 fuel (by omega)
    unfold load
    rw [hf]
    dsimp only
    unfold loadDocument
    dsimp only at hl1
    rw [hl1, Run.bind_ok]
    dsimp only
    rw [if_pos rfl, hl2, Run.bind_ok]
    rw [ht1] at hl3
    rw [hl3, Run.bind_ok]
    rw [ht2] at hl4
    rw [hl4]
    rfl
  · have := (p1.trans (p2.trans (p3.trans p4)))
    have e : e1 ++ e2 ++ (a ++ b).map (fun x => Effect.set none x.1 x.2) =
        e1 ++ (e2 ++ ((a.map fun x => Effect.set none x.1 x.2) ++ (b.map fun x => Effect.set none x.1 x.2))) := by
      rw [List.map_append, List.append_assoc]
    rw [e]
    exact ⟨this.good, this.frame, this.length, this.dirs⟩

theorem inherits_none {w : World} {dirs : List Str} {fs : Fields} (h : ∀ id, ¬ Member fs "inherits" (.str id)) : InheritsTo w dirs fs [] dirs := by
  refine ⟨0, fun s o asgs hp => ⟨s, fun fuel _ => ?_, Post.refl hp⟩⟩
  unfold loadParent
  rw [find_lookup]
  split
  · rename_i id hid
    exact absurd hid (h id)
  · rfl

theorem inherits_some {w : World} {dirs : List Str} {fs : Fields} {id p : Str} {e : List Effect} {d : List Str}
    (h : Member fs "inherits" (.str id)) (hf : Finds w dirs id p) (hl : LoadsTo w dirs p e d) : InheritsTo w dirs fs e d := by
  obtain ⟨f0, hl⟩ := hl
  refine ⟨f0, fun s o asgs hp => ?_⟩
  obtain ⟨s', h1, h2⟩ := hl s o asgs hp
  refine ⟨s', fun fuel hfu => ?_, h2⟩
  unfold loadParent
  rw [show fs.find "inherits".toList = some (.str id) from (find_lookup _ _).trans h]
  dsimp only
  rw [hp.dirs, find_definition hf]
  exact h1 fuel hfu

theorem trains_cons {l : List (Str × Json)} {k : Str} {v : Json} {fs : Fields} (h : fs.list = (k, v) :: l) : ∃ rest, fs = .cons k v rest ∧ rest.list = l := by
  cases fs with
  | nil => simp [Fields.list] at h
  | cons k' v' rest =>
    simp only [Fields.list, List.cons.injEq, Prod.mk.injEq] at h
    obtain ⟨⟨rfl, rfl⟩, rfl⟩ := h
    exact ⟨rest, rfl, rfl⟩

/-- What comes after a train that only makes extruders. -/
theorem trains_need {w : World} {dirs : List Str} {k : Str} {n : Nat} {v : Json} {rest : List (Str × Json)} {e' : List Effect} {d' : List Str}
    (hk : Settings.atoi k = (n : Nat)) (hv : ∀ id, v = .str id → findDefinition w dirs id = none) (ht : TrainsTo w dirs rest e' d') :
    TrainsTo w dirs ((k, v) :: rest) (.need n :: e') d' := by
  obtain ⟨f0, ht⟩ := ht
  refine ⟨f0, fun fs hfs s o asgs hp => ?_⟩
  obtain ⟨fr, rfl, hfr⟩ := trains_cons hfs
  have p1 := need_post (w := w) hp
  have hp1 := Post.pre (e1 := [.need n]) hp p1
  obtain ⟨s', h1, h2⟩ := ht fr hfr _ o _ hp1
  refine ⟨s', fun fuel hf => ?_, p1.trans h2⟩
  have h1 := h1 fuel hf
  unfold loadTrains loadTrain
  dsimp only
  rw [hk, if_neg (by omega), Int.toNat_natCast]
  cases v with
  | str id =>
    dsimp only
    rw [hp.dirs, hv id rfl, Run.bind_ok]
    rw [hp.dirs] at h1
    exact h1
  | _ => exact h1

theorem trains_file {w : World} {dirs : List Str} {k : Str} {n : Nat} {id p : Str} {e : List Effect} {d : List Str} {rest : List (Str × Json)}
    {e' : List Effect} {d' : List Str} (hk : Settings.atoi k = (n : Nat)) (hfi : Finds w dirs id p) (hl : LoadsTo w dirs p e d)
    (ht : TrainsTo w d rest e' d') : TrainsTo w dirs ((k, .str id) :: rest) (.need n :: e.map (Effect.inExtruder n) ++ e') d' := by
  obtain ⟨f1, hl⟩ := hl
  obtain ⟨f2, ht⟩ := ht
  refine ⟨max f1 f2, fun fs hfs s o asgs hp => ?_⟩
  obtain ⟨fr, rfl, hfr⟩ := trains_cons hfs
  have hp' : Pre s o asgs ([.need n] ++ (e.map (Effect.inExtruder n) ++ e')) dirs := hp
  have p1 := need_post (w := w) hp
  have hp1 := Post.pre (e1 := [.need n]) hp' p1
  have hlen : n < (s.scene.extend w (n + 1 - s.scene.extruders.length)).extruders.length := by
    have := p1.length
    simp only [Effect.needed, List.filterMap_cons, List.filterMap_nil, List.foldl_cons, List.foldl_nil] at this
    rw [this]
    omega
  have hpe : Pre { s with scene := s.scene.extend w (n + 1 - s.scene.extruders.length) } (.extruder n)
      (asgs ++ [Effect.need n].filterMap (Effect.assignment o)) e dirs :=
    ⟨hp1.good, hp1.dirs, by rw [env_isSome]; exact hlen, hp1.len, fun m hm => hp1.cap m (by
      rw [List.filterMap_append, filterMap_in_needed]
      exact List.mem_append_left _ hm)⟩
  obtain ⟨s2, hl2, p2⟩ := hl _ _ _ hpe
  have p2' : Post { s with scene := s.scene.extend w (n + 1 - s.scene.extruders.length) } s2 o
      (asgs ++ [Effect.need n].filterMap (Effect.assignment o)) (e.map (Effect.inExtruder n)) d :=
    ⟨by rw [filterMap_in]; exact p2.good, p2.frame, by rw [filterMap_in_needed]; exact p2.length, p2.dirs⟩
  have hp2 := Post.pre hp1 p2'
  obtain ⟨s3, hl3, p3⟩ := ht fr hfr s2 o _ hp2
  refine ⟨s3, fun fuel hf => ?_, p1.trans (p2'.trans p3)⟩
  have hl2 := hl2 fuel (by omega)
  have hl3 := hl3 fuel (by omega)
  unfold loadTrains loadTrain
  dsimp only
  rw [hk, if_neg (by omega), Int.toNat_natCast, hp.dirs, find_definition hfi]
  dsimp only
  have hdir : s.dirs = dirs := hp.dirs
  simp only [Scene.target] at hl2
  rw [hdir] at hl2
  rw [hl2]
  exact hl3

theorem loads_to {w : World} {dirs : List Str} {path : Str} {effs : List Effect} {dirs' : List Str} (h : Loads w dirs path effs dirs') :
    LoadsTo w dirs path effs dirs' := by
  refine Loads.rec (motive_1 := fun a b c d _ => LoadsTo w a b c d) (motive_2 := fun a b c d _ => InheritsTo w a b c d)
    (motive_3 := fun a b c d _ => TrainsTo w a b c d) ?_ ?_ ?_ ?_ ?_ ?_ ?_ ?_ h
  · exact fun hf _ htl _ hs hov ih1 ih2 => loads_file hf ih1 htl ih2 hs hov
  · exact fun h => inherits_none h
  · exact fun h hf _ ih => inherits_some h hf ih
  · refine ⟨0, fun fs hfs s o asgs hp => ?_⟩
    cases fs with
    | nil => exact ⟨s, fun _ _ => rfl, Post.refl hp⟩
    | cons k v rest => simp [Fields.list] at hfs
  · rintro dirs k v rest e d hk - ⟨f0, ih⟩
    refine ⟨f0, fun fs hfs s o asgs hp => ?_⟩
    obtain ⟨fr, rfl, hfr⟩ := trains_cons hfs
    obtain ⟨s', h1, h2⟩ := ih fr hfr s o asgs hp
    refine ⟨s', fun fuel hf => ?_, h2⟩
    unfold loadTrains loadTrain
    dsimp only
    rw [if_pos hk]
    exact h1 fuel hf
  · exact fun hk hfi _ _ ih1 ih2 => trains_file hk hfi ih1 ih2
  · exact fun hk hfi _ ih => trains_need hk (fun id hid => by cases hid; exact find_none hfi) ih
  · exact fun hk hv _ ih => trains_need hk (fun id hid => absurd hid (hv id)) ih

end Verif.Cli
