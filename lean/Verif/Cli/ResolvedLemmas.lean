import Verif.Cli.ItemLemmas

/-! # Resolved settings -/

namespace Verif.Cli

theorem emplace_lookup {α : Type} (m : List (Str × α)) (k' : Str) (v : α) (k : Str) :
    (emplace m k' v).lookup k = (m.lookup k).or (if k' = k then some v else none) := by
  unfold emplace
  split
  · rename_i h
    by_cases hk : k' = k
    · subst hk
      have : (m.lookup k').isSome = true := by
        rw [List.any_eq_true] at h
        obtain ⟨x, hx, he⟩ := h
        simp only [decide_eq_true_eq] at he
        rw [List.lookup_isSome_iff]
        exact ⟨x, hx, by simp [he]⟩
      obtain ⟨y, hy⟩ := Option.isSome_iff_exists.mp this
      simp [hy]
    · rw [if_neg hk]; simp
  · rw [List.lookup_append]
    by_cases hk : k' = k
    · subst hk; simp
    · have : (k == k') = false := by simpa using Ne.symm hk
      simp [hk, List.lookup_cons, this]

theorem emplace_nodup {α : Type} {m : List (Str × α)} (h : (m.map (·.1)).Nodup) (k : Str) (v : α) : ((emplace m k v).map (·.1)).Nodup := by
  unfold emplace
  split
  · exact h
  · rename_i hk
    rw [List.map_append, List.map_cons, List.map_nil, List.nodup_append]
    refine ⟨h, by simp, ?_⟩
    intro a ha b hb
    simp only [List.mem_singleton] at hb
    rintro rfl
    subst hb
    apply hk
    rw [List.any_eq_true]
    obtain ⟨x, hx, he⟩ := List.mem_map.mp ha
    exact ⟨x, hx, by simpa using he⟩

theorem lookup_mem {α : Type} {m : List (Str × α)} (h : (m.map (·.1)).Nodup) (k : Str) (v : α) : m.lookup k = some v ↔ (k, v) ∈ m := by
  induction m with
  | nil => simp
  | cons x m ih =>
    rw [List.map_cons, List.nodup_cons] at h
    rw [List.lookup_cons, List.mem_cons]
    by_cases hk : k = x.1
    · subst hk
      simp only [beq_self_eq_true]
      constructor
      · intro e; left; cases e; rfl
      · rintro (e | e)
        · rw [← e]
        · exact absurd (List.mem_map.mpr ⟨_, e, rfl⟩) h.1
    · have : (k == x.1) = false := by simpa using hk
      rw [this]
      simp only
      rw [ih h.2]
      constructor
      · exact Or.inr
      · rintro (e | e)
        · exact absurd (congrArg Prod.fst e) hk
        · exact e

theorem lookup_perm {α : Type} {m m' : List (Str × α)} (h : (m.map (·.1)).Nodup) (hp : m'.Perm m) (k : Str) : m'.lookup k = m.lookup k := by
  have h' : (m'.map (·.1)).Nodup := (hp.map _).nodup_iff.mpr h
  apply Option.ext
  intro v
  rw [lookup_mem h, lookup_mem h', hp.mem_iff]

theorem resolvedValues_lookup (fs : Fields) (m : List (Str × Str)) (k : Str) : (resolvedValues m fs).lookup k = (m.lookup k).or (partValue fs k) := by
  match fs with
  | .nil => simp [resolvedValues, partValue, Fields.list]
  | .cons k' v rest =>
    unfold resolvedValues
    have hpv : partValue (.cons k' v rest) k = (if k' = k then toText v else none).or (partValue rest k) := by
      unfold partValue
      rw [Fields.list, List.findSome?_cons]
      cases (if k' = k then toText v else none) <;> rfl
    rw [hpv]
    split
    · rename_i t ht
      rw [resolvedValues_lookup rest, emplace_lookup, ht, Option.or_assoc]
    · rename_i ht
      rw [resolvedValues_lookup rest, ht]
      simp

theorem resolvedValues_nodup (fs : Fields) {m : List (Str × Str)} (h : (m.map (·.1)).Nodup) : ((resolvedValues m fs).map (·.1)).Nodup := by
  match fs with
  | .nil => exact h
  | .cons k v rest =>
    unfold resolvedValues
    split
    · exact resolvedValues_nodup rest (emplace_nodup h _ _)
    · exact resolvedValues_nodup rest h

/-- The values of a part that is an object. -/
def partList : Json → Option (List (Str × Str))
  | .obj p => some (resolvedValues [] p)
  | _ => none

theorem resolvedParts_ok (fs : Fields) (m : List (Str × List (Str × Str))) (hm : (m.map (·.1)).Nodup) (hobj : ∀ x ∈ fs.list, ∃ p, x.2 = .obj p) :
    ∃ parts, resolvedParts m fs = .ok parts ∧ (parts.map (·.1)).Nodup ∧
      ∀ k, parts.lookup k = (m.lookup k).or ((fs.list.lookup k).bind partList) := by
  match fs with
  | .nil => exact ⟨m, rfl, hm, by simp [Fields.list]⟩
  | .cons k' v rest =>
    obtain ⟨p, hp⟩ := hobj (k', v) (by simp [Fields.list])
    dsimp only at hp
    subst hp
    obtain ⟨parts, h1, h2, h3⟩ := resolvedParts_ok rest (emplace m k' (resolvedValues [] p)) (emplace_nodup hm _ _)
      fun x hx => hobj x (by simp [Fields.list, hx])
    refine ⟨parts, h1, h2, fun k => ?_⟩
    rw [h3, emplace_lookup, Fields.list, List.lookup_cons, Option.or_assoc]
    congr 1
    by_cases hk : k' = k
    · subst hk; simp [partList]
    · have : (k == k') = false := by simpa using Ne.symm hk
      rw [this, if_neg hk]
      simp

/-! ## Containers -/

theorem adds_nodup {l : List (Str × Str)} (h : (l.map (·.1)).Nodup) (e : Env) (k : Str) : e.adds l k = (l.lookup k).or (e k) := by
  induction l generalizing e with
  | nil => simp [Env.adds]
  | cons x l ih =>
    rw [List.map_cons, List.nodup_cons] at h
    have h1 : e.adds (x :: l) = (e.add x.1 x.2).adds l := rfl
    rw [h1, ih h.2, List.lookup_cons, Env.add]
    by_cases hk : k = x.1
    · subst hk
      have : l.lookup x.1 = none := by
        cases hl : l.lookup x.1 with
        | none => rfl
        | some v => exact absurd (List.mem_map.mpr ⟨_, (lookup_mem h.2 _ _).mp hl, rfl⟩) h.1
      simp [this]
    · have : (k == x.1) = false := by simpa using hk
      rw [this, if_neg hk]

theorem addAll_global (vs : List (Str × Str)) (s : Scene) : addAll .global vs s = .ok { s with global := s.global.adds vs } := by
  induction vs generalizing s with
  | nil => rfl
  | cons x vs ih =>
    obtain ⟨k, v⟩ := x
    unfold addAll
    have : s.add .global k v = .ok { s with global := s.global.add k v } := rfl
    rw [this, Run.bind_ok, ih]
    rfl

theorem addAll_extruder (vs : List (Str × Str)) (s : Scene) (n : Nat) (h : n < s.extruders.length) : addAll (.extruder ⟨s.gen, n⟩) vs s =
    .ok { s with extruders := s.extruders.modify n fun e => { e with env := e.env.adds vs } } := by
  induction vs generalizing s with
  | nil =>
    have : s.extruders.modify n (fun e => { e with env := e.env.adds [] }) = s.extruders := by
      apply List.ext_getElem?
      intro i
      rw [List.getElem?_modify]
      cases s.extruders[i]? with
      | none => rfl
      | some e => simp [Env.adds]
    rw [this]
    rfl
  | cons x vs ih =>
    obtain ⟨k, v⟩ := x
    have he : s.extruders[n]? = some s.extruders[n] := List.getElem?_eq_getElem h
    have hadd : s.add (.extruder ⟨s.gen, n⟩) k v = .ok { s with extruders := s.extruders.modify n fun e => { e with env := s.extruders[n].env.add k v } } := by
      simp only [Scene.add, Scene.read, Scene.extruder, if_true, index_some he, Run.bind_ok, Run.pure_eq, Scene.write]
    unfold addAll
    rw [hadd, Run.bind_ok]
    have := ih { s with extruders := s.extruders.modify n fun e => { e with env := s.extruders[n].env.add k v } } (by simpa using h)
    rw [this]
    congr 2
    dsimp only
    apply List.ext_getElem?
    intro i
    rw [List.getElem?_modify, List.getElem?_modify, List.getElem?_modify]
    by_cases hi : n = i
    · subst hi
      rw [he]
      simp [Env.adds]
    · cases s.extruders[i]? <;> simp [hi]

/-- The values of an extruder, none if it does not exist. -/
def envOf (s : Scene) (n : Nat) (k : Str) : Option Str := (s.extruders[n]?).bind fun e => e.env k

theorem pushes_facts (w : World) (nr m : Nat) (s : Scene) : (∀ n k, envOf (s.pushes w nr m) n k = envOf s n k) ∧
    (s.pushes w nr m).extruders.length = s.extruders.length + m ∧ (s.pushes w nr m).global = s.global ∧
    (s.pushes w nr m).groups = s.groups ∧ (s.pushes w nr m).limit = s.limit := by
  induction m generalizing s with
  | zero => exact ⟨fun _ _ => rfl, rfl, rfl, rfl, rfl⟩
  | succ m ih =>
    obtain ⟨h1, h2, h3, h4, h5⟩ := ih (s.push w nr)
    have hx : (s.push w nr).extruders = s.extruders ++ [⟨nr, Env.empty⟩] ∧ (s.push w nr).global = s.global ∧
        (s.push w nr).groups = s.groups ∧ (s.push w nr).limit = s.limit := by
      unfold Scene.push
      split <;> exact ⟨rfl, rfl, rfl, rfl⟩
    refine ⟨fun n k => ?_, ?_, h3.trans hx.2.1, h4.trans hx.2.2.1, h5.trans hx.2.2.2⟩
    · rw [Scene.pushes, h1, envOf, envOf, hx.1, List.getElem?_append]
      split
      · rfl
      · rename_i hn
        rw [List.getElem?_eq_none (show s.extruders.length ≤ n by omega)]
        cases hy : [(⟨nr, Env.empty⟩ : Extruder)][n - s.extruders.length]? with
        | none => rfl
        | some y =>
          have := List.mem_of_getElem? hy
          simp only [List.mem_singleton] at this
          subst this
          rfl
    · rw [Scene.pushes, h2, hx.1, List.length_append]
      simp only [List.length_cons, List.length_nil]
      omega

theorem stoi_digits (n : Nat) (h : n < 2 ^ 31) : stoi (Text.digits n) = .ok n := by
  have hs : signDigits (Text.digits n) = (false, Text.digits n) := by
    cases hd : Text.digits n with
    | nil => exact absurd hd (Text.digits_ne_nil _)
    | cons c r =>
      obtain ⟨h1, h2, h3, h4⟩ := digit_facts (digits_digit n c (by rw [hd]; simp))
      unfold signDigits
      rw [List.dropWhile_cons, h1]
      have ht : (c :: r).takeWhile isDigit = c :: r := by
        apply takeWhile_eq
        intro a ha
        rw [← hd] at ha
        exact (digit_facts (digits_digit n a ha)).2.2.2
      simp only [Bool.false_eq_true, if_false]
      split
      · rename_i heq; exact absurd (List.cons.inj heq).1 h2
      · rename_i heq; exact absurd (List.cons.inj heq).1 h3
      · rw [ht]
  have hv : Settings.digitsVal 0 (Text.digits n) = n := by
    have := digits_value (Text.digits n) 0 (digits_digit n)
    rw [Text.natFrom_digits] at this
    simpa using this.symm
  unfold stoi
  rw [hs]
  dsimp only
  rw [if_neg (Text.digits_ne_nil _), hv]
  simp only [Bool.false_eq_true, if_false]
  rw [if_neg (by omega)]

def extruderName (n : Nat) : Str := "extruder.".toList ++ Text.digits n

theorem digits_inj {a b : Nat} (h : Text.digits a = Text.digits b) : a = b := by
  have h1 := Text.natFrom_digits 0 a
  rw [h, Text.natFrom_digits] at h1
  simpa using h1.symm

theorem extruderName_inj {a b : Nat} (h : extruderName a = extruderName b) : a = b := digits_inj (List.append_cancel_left h)

/-- All parts for extruders, in any order. -/
theorem resolvedExtruders_ok (w : World) (l : List (Str × List (Str × Str))) (s : Scene) (hl : (l.map (·.1)).Nodup)
    (hn : ∀ x ∈ l, (∃ n < 2 ^ 31, x.1 = extruderName n) ∧ (x.2.map (·.1)).Nodup) :
    ∃ s', resolvedExtruders w l s = .ok s' ∧ s'.global = s.global ∧ s'.groups = s.groups ∧ s'.limit = s.limit ∧
      s.extruders.length ≤ s'.extruders.length ∧ (∀ n, (l.lookup (extruderName n)).isSome = true → n < s'.extruders.length) ∧
      ∀ n k, envOf s' n k = ((l.lookup (extruderName n)).bind fun vs => vs.lookup k).or (envOf s n k) := by
  induction l generalizing s with
  | nil => exact ⟨s, rfl, rfl, rfl, rfl, le_rfl, by simp, by simp⟩
  | cons x l ih =>
    obtain ⟨name, vs⟩ := x
    obtain ⟨⟨n, hn31, hname⟩, hvs⟩ := hn (name, vs) List.mem_cons_self
    dsimp only at hname hvs
    subst hname
    rw [List.map_cons, List.nodup_cons] at hl
    obtain ⟨p1, p2, p3, p4, p5⟩ := pushes_facts w n (n + 1 - s.extruders.length) s
    have hlt : n < (s.pushes w n (n + 1 - s.extruders.length)).extruders.length := by rw [p2]; omega
    have hadd := addAll_extruder vs (s.pushes w n (n + 1 - s.extruders.length)) n hlt
    generalize hs1 : s.pushes w n (n + 1 - s.extruders.length) = s1 at p1 p2 p3 p4 p5 hlt hadd
    obtain ⟨s', h1, h2, h3, h4, h5, h6, h7⟩ := ih { s1 with extruders := s1.extruders.modify n fun e => { e with env := e.env.adds vs } } hl.2
      fun y hy => hn y (List.mem_cons_of_mem _ hy)
    simp only [List.length_modify] at h5
    refine ⟨s', ?_, h2.trans p3, h3.trans p4, h4.trans p5, by omega, ?_, ?_⟩
    · unfold resolvedExtruders
      have hdrop : (extruderName n).drop 9 = Text.digits n := rfl
      rw [hdrop, stoi_digits n hn31, Run.bind_ok, if_neg (by omega)]
      dsimp only
      rw [Int.toNat_natCast, hs1, hadd, Run.bind_ok]
      exact h1
    · intro m hm
      rw [List.lookup_cons] at hm
      by_cases hmn : m = n
      · subst hmn; omega
      · have : (extruderName m == extruderName n) = false := by
          simpa using fun h => hmn (extruderName_inj h)
        rw [this] at hm
        exact h6 m hm
    · intro m k
      rw [h7, List.lookup_cons]
      have henv : envOf { s1 with extruders := s1.extruders.modify n fun e => { e with env := e.env.adds vs } } m k =
          if m = n then (vs.lookup k).or (envOf s n k) else envOf s m k := by
        rw [← p1, ← p1]
        simp only [envOf, List.getElem?_modify]
        by_cases hmn : m = n
        · subst hmn
          have he : s1.extruders[m]? = some s1.extruders[m] := List.getElem?_eq_getElem hlt
          rw [he]
          simp [adds_nodup hvs]
        · rw [if_neg hmn]
          cases s1.extruders[m]? <;> simp [Ne.symm hmn]
      rw [henv]
      by_cases hmn : m = n
      · subst hmn
        have : l.lookup (extruderName m) = none := by
          cases hll : l.lookup (extruderName m) with
          | none => rfl
          | some v => exact absurd (List.mem_map.mpr ⟨_, (lookup_mem hl.2 _ _).mp hll, rfl⟩) hl.1
        simp [this]
      · have : (extruderName m == extruderName n) = false := by
          simpa using fun h => hmn (extruderName_inj h)
        rw [this, if_neg hmn]

theorem lookup_of_keys {α : Type} {l : List (Str × α)} {k : Str} {v : α} (h : l.lookup k = some v) : (k, v) ∈ l := by
  induction l with
  | nil => simp at h
  | cons x l ih =>
    rw [List.lookup_cons] at h
    by_cases hk : k = x.1
    · subst hk
      simp only [beq_self_eq_true, Option.some.injEq] at h
      subst h
      simp
    · have : (k == x.1) = false := by simpa using hk
      rw [this] at h
      exact List.mem_cons_of_mem _ (ih h)

theorem filter_lookup {α : Type} (l : List (Str × α)) (p : Str → Bool) (k : Str) (hk : p k = true) :
    (l.filter fun x => p x.1).lookup k = l.lookup k := by
  induction l with
  | nil => rfl
  | cons x l ih =>
    rw [List.filter_cons]
    by_cases hx : k = x.1
    · subst hx
      rw [hk, if_pos rfl, List.lookup_cons, List.lookup_cons]
      simp
    · have : (k == x.1) = false := by simpa using hx
      rw [List.lookup_cons, this]
      split
      · rw [List.lookup_cons, this]; exact ih
      · exact ih

theorem resolved_plain {w : World} {f : Str} {fs : Fields} {s : State} (hf : w.file f = some (some (.obj fs))) (hp : PlainParts fs)
    (ho : ∀ l, (w.order l).Perm l) : ∃ s', resolvedOption w f s = .ok s' ∧
      (∀ k, s'.store.scene.global k = (resolved fs "global".toList k).or (s.store.scene.global k)) ∧
      (∀ n e, s'.store.scene.extruders[n]? = some e → ∀ k, e.env k =
        (resolved fs ("extruder.".toList ++ Text.digits n) k).or ((s.store.scene.extruders[n]?).bind fun e => e.env k)) ∧
      (∀ n, (fs.list.lookup ("extruder.".toList ++ Text.digits n)).isSome = true → n < s'.store.scene.extruders.length) ∧
      s'.store.scene.groups = s.store.scene.groups ∧ s'.store.scene.limit = s.store.scene.limit ∧ s'.target = s.target := by
  obtain ⟨parts, h1, h2, h3⟩ := resolvedParts_ok fs [] (by simp) fun x hx => (hp x hx).1
  simp only [List.lookup_nil, Option.none_or] at h3
  -- what the parts are
  have hkey : ∀ x ∈ parts, ∃ v p, (x.1, v) ∈ fs.list ∧ v = .obj p ∧ x.2 = resolvedValues [] p := by
    intro x hx
    have hl : parts.lookup x.1 = some x.2 := (lookup_mem h2 _ _).mpr hx
    rw [h3, Option.bind_eq_some_iff] at hl
    obtain ⟨v, hv, hpl⟩ := hl
    obtain ⟨p, hp'⟩ := (hp _ (lookup_of_keys hv)).1
    dsimp only at hp'
    subst hp'
    exact ⟨.obj p, p, lookup_of_keys hv, rfl, (Option.some.inj hpl).symm⟩
  have hres : ∀ part k, ((parts.lookup part).bind fun vs => vs.lookup k) = resolved fs part k := by
    intro part k
    rw [h3]
    unfold resolved
    cases hl : fs.list.lookup part with
    | none => rfl
    | some v =>
      obtain ⟨p, hp'⟩ := (hp _ (lookup_of_keys hl)).1
      dsimp only at hp'
      subst hp'
      simp only [Option.bind_some, partList, resolvedValues_lookup, List.lookup_nil, Option.none_or]
  have hnoModel : parts.filter (fun e => isModelPart e.1) = [] := by
    rw [List.filter_eq_nil_iff]
    intro x hx
    obtain ⟨v, p, hm, -, -⟩ := hkey x hx
    rcases (hp _ hm).2 with hg | ⟨n, -, hn⟩
    · dsimp only at hg
      rw [hg]
      decide +kernel
    · dsimp only at hn
      rw [hn]
      have : isExtruderPart ("extruder.".toList ++ Text.digits n) = true := by
        unfold isExtruderPart startsWith
        rw [List.isPrefixOf_iff_prefix]
        exact List.prefix_append _ _
      unfold isModelPart
      rw [this]
      simp
  have hnoLimit : parts.lookup "limit_to_extruder".toList = none := by
    cases hl : parts.lookup "limit_to_extruder".toList with
    | none => rfl
    | some v =>
      obtain ⟨v', p, hm, -, -⟩ := hkey _ ((lookup_mem h2 _ _).mp hl)
      rcases (hp _ hm).2 with hg | ⟨n, -, hn⟩
      · exact absurd (show "limit_to_extruder".toList = "global".toList from hg) (by decide +kernel)
      · exact absurd (congrArg (fun l => l.head?) hn) (by simp)
  have hord : w.order [] = [] := (ho []).eq_nil
  have hE := ho (parts.filter fun e => isExtruderPart e.1)
  have hEn : ((parts.filter fun e => isExtruderPart e.1).map (·.1)).Nodup := h2.sublist (List.filter_sublist.map _)
  have hgn : ∀ vs, parts.lookup "global".toList = some vs → (vs.map (·.1)).Nodup := by
    intro vs hvs
    obtain ⟨v, p, -, -, hx⟩ := hkey _ ((lookup_mem h2 _ _).mp hvs)
    dsimp only at hx
    rw [hx]
    exact resolvedValues_nodup p (by simp)
  have hglob : ∀ k, s.store.scene.global.adds ((parts.lookup "global".toList).getD []) k =
      (resolved fs "global".toList k).or (s.store.scene.global k) := by
    intro k
    rw [← hres]
    cases hl : parts.lookup "global".toList with
    | none => simp [Env.adds]
    | some vs => simp [adds_nodup (hgn vs hl)]
  obtain ⟨s1, r1, r2, r3, r4, r5, r6, r7⟩ := resolvedExtruders_ok w (w.order (parts.filter fun e => isExtruderPart e.1))
    { s.store.scene with global := s.store.scene.global.adds ((parts.lookup "global".toList).getD []) }
    ((hE.map _).nodup_iff.mpr hEn) (by
      intro x hx
      rw [hE.mem_iff, List.mem_filter] at hx
      obtain ⟨hx, he⟩ := hx
      obtain ⟨v, p, hm, -, hv⟩ := hkey x hx
      refine ⟨?_, by rw [hv]; exact resolvedValues_nodup p (by simp)⟩
      rcases (hp _ hm).2 with hg | hn
      · dsimp only at hg
        rw [hg] at he
        exact absurd he (by decide +kernel)
      · exact hn)
  have hlook : ∀ n, (w.order (parts.filter fun e => isExtruderPart e.1)).lookup (extruderName n) = parts.lookup (extruderName n) := by
    intro n
    rw [lookup_perm hEn hE]
    apply filter_lookup
    unfold isExtruderPart startsWith
    rw [List.isPrefixOf_iff_prefix]
    exact List.prefix_append _ _
  refine ⟨{ s with store := { s.store with scene := s1 } }, ?_, fun k => ?_, fun n e he k => ?_, fun n hn => ?_, r3, r4, rfl⟩
  · unfold resolvedOption
    rw [hf]
    dsimp only
    rw [h1, Run.bind_ok, addAll_global, Run.bind_ok, r1, Run.bind_ok, hnoModel, hord, hnoLimit]
    rfl
  · dsimp only
    rw [r2]
    exact hglob k
  · have := r7 n k
    rw [hlook, hres] at this
    rw [envOf, he] at this
    exact this
  · apply r6 n
    rw [hlook, h3]
    obtain ⟨v, hv⟩ := Option.isSome_iff_exists.mp hn
    obtain ⟨p, hp'⟩ := (hp _ (lookup_of_keys hv)).1
    dsimp only at hp'
    subst hp'
    have hv' : fs.list.lookup (extruderName n) = some (.obj p) := hv
    rw [hv']
    rfl

end Verif.Cli
