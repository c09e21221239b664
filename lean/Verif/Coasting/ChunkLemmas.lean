import Verif.Coasting.PathLemmas

namespace Verif.Coasting
section
variable {X : Type} {G : Geo X} {c : Cfg}

theorem chunk_spec (hlen : ∀ a b, 0 ≤ G.len a b) (hvol : 0 < c.volume) (hc : c.volume ≤ c.minVolume) (E T : List (Path X × X))
    (hE : ∀ p ∈ E, p.1.travel = false) (hT : ∀ p ∈ T, p.1.travel = true) (hrate : ∀ p ∈ E, 0 ≤ p.1.rate) :
    ∃ ks kt, chunk G c (E ++ T) = some (ks ++ kt) ∧ ks.length = E.length ∧ kt.length = T.length ∧
      (((∃ p, E.head? = some p ∧ p.1.wall = true) ∧ c.minVolume ≤ nominal G (allSegs E) →
        ∃ a s b t, CoastedFrom G (allSegs E) c.volume (backwards E ks) a s b t) ∧
       (¬ ((∃ p, E.head? = some p ∧ p.1.wall = true) ∧ c.minVolume ≤ nominal G (allSegs E)) → backwards E ks = extrudeAll (allSegs E))) := by
  obtain ⟨r', ks, h1, h2, h3, h4⟩ := pathLoop_search (c := c) hlen T hT hc E hE hrate ⟨0, false, false, .no⟩ rfl rfl hvol
  simp only [zero_add, sub_zero] at h3 h4
  cases E with
  | nil =>
    cases T with
    | nil => exact ⟨[], [], rfl, rfl, rfl, by simp, fun _ => rfl⟩
    | cons p T =>
      rw [List.nil_append] at h1 ⊢
      unfold chunk
      dsimp only
      have hk : ks = [] := List.eq_nil_of_length_eq_zero h2
      subst hk
      by_cases hw : p.1.wall = true
      · rw [if_pos hw, h1, Option.map_some, List.nil_append]
        dsimp only
        by_cases hm : r'.minReached = true
        · rw [if_pos hm]
          exact ⟨[], _, rfl, rfl, by simp, by simp, fun _ => rfl⟩
        · rw [if_neg hm]
          exact ⟨[], _, rfl, rfl, by simp, by simp, fun _ => rfl⟩
      · rw [if_neg hw]
        exact ⟨[], _, rfl, rfl, by simp, by simp, fun _ => rfl⟩
  | cons p E =>
    rw [List.cons_append] at h1 ⊢
    unfold chunk
    dsimp only
    by_cases hw : p.1.wall = true
    · rw [if_pos hw, h1, Option.map_some]
      by_cases hm : c.minVolume ≤ nominal G (allSegs (p :: E))
      · simp only [h3, hm, decide_true, if_true]
        refine ⟨ks, T.map fun _ => .no, rfl, h2, by simp, fun _ => h4 (by linarith), fun h => absurd trivial (fun _ => h ⟨⟨p, rfl, hw⟩, True.intro⟩)⟩
      · simp only [h3, hm, decide_false, Bool.false_eq_true, if_false]
        refine ⟨(p :: E).map fun _ => .no, T.map fun _ => .no, ?_, by simp, by simp, fun h => h.2.elim, fun _ => backwards_no _ hE⟩
        congr 1
        rw [List.map_append, List.map_map]
        congr 1
        rw [List.map_const', List.map_const', h2]
    · rw [if_neg hw]
      refine ⟨(p :: E).map fun _ => .no, T.map fun _ => .no, by simp, by simp, by simp, ?_, fun _ => backwards_no _ hE⟩
      rintro ⟨⟨q, hq, hqw⟩, -⟩
      simp only [List.head?_cons, Option.some.injEq] at hq
      rw [hq] at hw
      exact absurd hqw hw

/-- The relation by which the paths are divided into chunks. -/
def together (a b : Path X × X) : Bool := !a.1.travel || b.1.travel

theorem chain_shape (l : List (Path X × X)) (h : l.IsChain fun a b => together a b = true) :
    ∃ E T, l = E ++ T ∧ (∀ p ∈ E, p.1.travel = false) ∧ (∀ p ∈ T, p.1.travel = true) := by
  induction l with
  | nil => exact ⟨[], [], rfl, by simp, by simp⟩
  | cons p l ih =>
    obtain ⟨E, T, rfl, hE, hT⟩ := ih h.of_cons
    by_cases hp : p.1.travel = true
    · cases E with
      | nil =>
        refine ⟨[], p :: T, rfl, by simp, ?_⟩
        intro q hq
        rw [List.mem_cons] at hq
        rcases hq with rfl | hq
        · exact hp
        · exact hT q hq
      | cons e E =>
        rw [List.cons_append, List.isChain_cons_cons] at h
        have := h.1
        unfold together at this
        rw [hp, hE e (by simp)] at this
        cases this
    · refine ⟨p :: E, T, rfl, ?_, hT⟩
      intro q hq
      rw [List.mem_cons] at hq
      rcases hq with rfl | hq
      · simpa using hp
      · exact hE q hq

theorem shape_chain (E T : List (Path X × X)) (hE : ∀ p ∈ E, p.1.travel = false) (hT : ∀ p ∈ T, p.1.travel = true) :
    (E ++ T).IsChain fun a b => together a b = true := by
  induction E with
  | nil =>
    induction T with
    | nil => exact .nil
    | cons p T ih =>
      cases T with
      | nil => exact .singleton _
      | cons q T =>
        rw [List.nil_append, List.isChain_cons_cons]
        exact ⟨by unfold together; rw [hT q (by simp)]; simp, ih (fun r hr => hT r (by simp at hr; simp [hr]))⟩
  | cons p E ih =>
    rw [List.cons_append]
    have := ih (fun q hq => hE q (by simp [hq]))
    cases h : E ++ T with
    | nil => exact .singleton _
    | cons q l =>
      rw [List.isChain_cons_cons, ← h]
      exact ⟨by unfold together; rw [hE p (by simp)]; rfl, this⟩

theorem mapM_append_some {α β : Type} {f : α → Option β} {a b : List α} {x y : List β} (ha : a.mapM f = some x) (hb : b.mapM f = some y) :
    (a ++ b).mapM f = some (x ++ y) := by
  rw [List.mapM_append, ha, hb]
  rfl

/-- Every list of paths can be treated, and each path gets an entry. -/
theorem chunks_total (hlen : ∀ a b, 0 ≤ G.len a b) (hvol : 0 < c.volume) (hc : c.volume ≤ c.minVolume) (l : List (List (Path X × X)))
    (hl : ∀ m ∈ l, m.IsChain fun a b => together a b = true) (hrate : ∀ m ∈ l, ∀ p ∈ m, 0 ≤ p.1.rate) :
    ∃ r, l.mapM (chunk G c) = some r ∧ r.flatten.length = l.flatten.length := by
  induction l with
  | nil => exact ⟨[], rfl, rfl⟩
  | cons m l ih =>
    obtain ⟨r, h1, h2⟩ := ih (fun q hq => hl q (by simp [hq])) (fun q hq => hrate q (by simp [hq]))
    obtain ⟨E, T, e, hE, hT⟩ := chain_shape m (hl m (by simp))
    obtain ⟨ks, kt, g1, g2, g3, -⟩ := chunk_spec hlen hvol hc E T hE hT (fun p hp => hrate m (by simp) p (by rw [e]; simp [hp]))
    rw [← e] at g1
    refine ⟨(ks ++ kt) :: r, ?_, ?_⟩
    · rw [List.mapM_cons, g1, h1]
      rfl
    · rw [List.flatten_cons, List.flatten_cons, List.length_append, List.length_append, h2, e, List.length_append, List.length_append, g2, g3]

theorem starts_total (x : X) (l : List (Path X)) (h : ∀ p ∈ l, p.points ≠ []) : ∃ L, starts x l = some L ∧ L.map (·.1) = l := by
  induction l generalizing x with
  | nil => exact ⟨[], rfl, rfl⟩
  | cons p l ih =>
    rw [starts]
    rw [List.getLast?_eq_some_getLast (h p (by simp))]
    dsimp only
    obtain ⟨L, h1, h2⟩ := ih (p.points.getLast (h p (by simp))) (fun q hq => h q (by simp [hq]))
    rw [h1]
    exact ⟨_, rfl, by simp [h2]⟩

theorem starts_append (x : X) (a b : List (Path X)) (h : ∀ p ∈ a, p.points ≠ []) {L : List (Path X × X)} (hL : starts x (a ++ b) = some L) :
    ∃ A B, L = A ++ B ∧ A.map (·.1) = a ∧ starts (endOf x a) b = some B := by
  induction a generalizing x L with
  | nil => exact ⟨[], L, rfl, rfl, hL⟩
  | cons p a ih =>
    have hp := h p (by simp)
    rw [List.cons_append, starts, List.getLast?_eq_some_getLast hp] at hL
    dsimp only at hL
    rw [Option.map_eq_some_iff] at hL
    obtain ⟨L', h1, rfl⟩ := hL
    obtain ⟨A, B, rfl, h2, h3⟩ := ih _ (fun q hq => h q (by simp [hq])) h1
    refine ⟨(p, x) :: A, B, rfl, by simp [h2], ?_⟩
    have : endOf x (p :: a) = endOf (p.points.getLast hp) a := by
      unfold endOf
      rw [List.flatMap_cons]
      rcases List.eq_nil_or_concat (a.flatMap (·.points)) with e | ⟨m, y, e⟩
      · rw [e, List.append_nil, List.getLastD_eq_getLast?, List.getLast?_eq_some_getLast hp]
        rfl
      · rw [e, List.concat_eq_append, ← List.append_assoc]
        simp [List.getLastD_eq_getLast?]
    rw [this]
    exact h3

theorem zip_segments (x : X) (rate width : ℚ) (l : List X) (y : X) (m : List (X × ℚ × ℚ)) (hl : l ≠ []) (hy : y = l.getLast hl) :
    List.zipWith (fun a b => (⟨a, b.1, b.2.1, b.2.2⟩ : Seg X)) (x :: (l.map (fun q => (q, rate, width)) ++ m).map (·.1)) (l.map (fun q => (q, rate, width)) ++ m) =
      (segments x l).map (fun s => ⟨s.1, s.2, rate, width⟩) ++ List.zipWith (fun a b => ⟨a, b.1, b.2.1, b.2.2⟩) (y :: m.map (·.1)) m := by
  induction l generalizing x with
  | nil => exact absurd rfl hl
  | cons p l ih =>
    cases l with
    | nil =>
      subst hy
      simp [segments]
    | cons q l =>
      have := ih p (by simp) (by rw [hy]; simp)
      rw [segments]
      simp only [List.map_cons, List.cons_append, List.zipWith_cons_cons] at this ⊢
      rw [this]

theorem segs_eq (x : X) (l : List (Path X)) (h : ∀ p ∈ l, p.points ≠ []) {L : List (Path X × X)} (hL : starts x l = some L) :
    segs x l = L.flatMap psegs := by
  induction l generalizing x L with
  | nil =>
    cases hL
    rfl
  | cons p l ih =>
    have hp := h p (by simp)
    rw [starts, List.getLast?_eq_some_getLast hp] at hL
    dsimp only at hL
    rw [Option.map_eq_some_iff] at hL
    obtain ⟨L', h1, rfl⟩ := hL
    have := ih _ (fun q hq => h q (by simp [hq])) h1
    rw [List.flatMap_cons, ← this]
    unfold segs
    dsimp only
    rw [List.flatMap_cons]
    exact zip_segments x p.rate p.width p.points _ _ hp rfl

end
end Verif.Coasting
