import Verif.Coasting.ChunkLemmas

namespace Verif.Coasting
section
variable {X : Type} {G : Geo X} {c : Cfg}

theorem split_eq (x : X) (paths : List (Path X)) {L : List (Path X × X)} (hL : starts x paths = some L) :
    coastings G c x paths = ((L.reverse.splitBy together).mapM (chunk G c)).map fun r => r.flatten.reverse := by
  unfold coastings
  rw [hL]
  rfl

theorem takeWhile_travels (B : List (Path X × X)) (hB : ∀ p, B.head? = some p → p.1.travel = true) :
    ∃ T R, B = T ++ R ∧ (∀ p ∈ T, p.1.travel = true) ∧ (∀ p ∈ T.getLast?, ∀ q ∈ R.head?, together p q = false) ∧ (T = [] → R = []) := by
  induction B with
  | nil => exact ⟨[], [], rfl, by simp, by simp, fun _ => rfl⟩
  | cons p B ih =>
    have hp := hB p rfl
    cases B with
    | nil =>
      refine ⟨[p], [], rfl, ?_, by simp, by simp⟩
      intro q hq
      rw [List.mem_singleton] at hq
      rw [hq]
      exact hp
    | cons q B =>
      by_cases hq : q.1.travel = true
      · obtain ⟨T, R, e, h1, h2, h3⟩ := ih (fun r hr => by simp only [List.head?_cons, Option.some.injEq] at hr; rw [← hr]; exact hq)
        have hT : T ≠ [] := by
          intro h
          rw [h, h3 h] at e
          cases e
        refine ⟨p :: T, R, by rw [e]; rfl, ?_, ?_, by simp⟩
        · intro r hr
          rw [List.mem_cons] at hr
          rcases hr with rfl | hr
          · exact hp
          · exact h1 r hr
        · intro r hr
          apply h2 r
          rw [List.getLast?_eq_some_getLast hT]
          rw [List.getLast?_eq_some_getLast (by simp), List.getLast_cons hT] at hr
          exact hr
      · refine ⟨[p], q :: B, rfl, ?_, ?_, by simp⟩
        · intro r hr
          rw [List.mem_singleton] at hr
          rw [hr]
          exact hp
        · intro r hr s hs
          simp only [List.getLast?_singleton, Option.mem_def, Option.some.injEq, List.head?_cons] at hr hs
          rw [← hr, ← hs]
          unfold together
          rw [hp]
          simpa using hq

/-- The coasting of the paths around a stretch and of the stretch. -/
theorem coastings_stretch (hlen : ∀ a b, 0 ≤ G.len a b) (hvol : 0 < c.volume) (hc : c.volume ≤ c.minVolume) (B S A : List (Path X × X))
    (hS : S ≠ []) (hex : ∀ p ∈ S, p.1.travel = false) (hleft : ∀ p, B.getLast? = some p → p.1.travel = true)
    (hright : ∀ p, A.head? = some p → p.1.travel = true) (hrate : ∀ p ∈ B ++ S ++ A, 0 ≤ p.1.rate) :
    ∃ kb ks ka r, ((B ++ S ++ A).reverse.splitBy together).mapM (chunk G c) = some r ∧ r.flatten.reverse = kb ++ ks ++ ka ∧
      kb.length = B.length ∧ ks.length = S.length ∧ ka.length = A.length ∧
      (((∃ p, S.getLast? = some p ∧ p.1.wall = true) ∧ c.minVolume ≤ nominal G (S.flatMap psegs) →
        ∃ a s b t, CoastedFrom G (S.flatMap psegs) c.volume (List.zipWith (fun p k => write p.1 k) S ks).flatten a s b t) ∧
       (¬ ((∃ p, S.getLast? = some p ∧ p.1.wall = true) ∧ c.minVolume ≤ nominal G (S.flatMap psegs)) →
        (List.zipWith (fun p k => write p.1 k) S ks).flatten = extrudeAll (S.flatMap psegs))) := by
  obtain ⟨T, R, e, h1, h2, h3⟩ := takeWhile_travels B.reverse (by intro p hp; rw [List.head?_reverse] at hp; exact hleft p hp)
  have hsplit : (B ++ S ++ A).reverse.splitBy together = A.reverse.splitBy together ++ ([S.reverse ++ T] ++ R.splitBy together) := by
    rw [List.reverse_append, List.reverse_append, e, List.splitBy_append]
    · rw [← List.append_assoc, List.splitBy_append]
      · rw [List.splitBy_of_isChain (l := S.reverse ++ T) (by simp [hS]) (shape_chain _ _ (fun p hp => hex p (by simpa using hp)) h1)]
      · intro p hp q hq
        by_cases hT : T = []
        · rw [h3 hT] at hq
          simp at hq
        · apply h2 p _ q hq
          rw [Option.mem_def, List.getLast?_append_of_ne_nil _ hT] at hp
          exact hp
    · intro p hp q hq
      rw [Option.mem_def, List.getLast?_reverse] at hp
      have hne : S.reverse ≠ [] := by simpa using hS
      rw [Option.mem_def, List.head?_append_of_ne_nil _ hne, List.head?_reverse] at hq
      unfold together
      rw [hright p hp, hex q (List.mem_of_getLast? hq)]
      rfl
  have hE : ∀ p ∈ S.reverse, p.1.travel = false := fun p hp => hex p (by simpa using hp)
  have hmemB : ∀ p ∈ R, p ∈ B := by
    intro p hp
    have : p ∈ B.reverse := by rw [e]; simp [hp]
    simpa using this
  obtain ⟨ks, kt, g1, g2, g3, g4, g5⟩ := chunk_spec (G := G) hlen hvol hc S.reverse T hE h1 (fun p hp => hrate p (by simp at hp; simp [hp]))
  obtain ⟨ra, a1, a2⟩ := chunks_total (G := G) hlen hvol hc (A.reverse.splitBy together) (fun m hm => List.isChain_of_mem_splitBy hm)
    (fun m hm p hp => hrate p (by
      have : p ∈ (A.reverse.splitBy together).flatten := List.mem_flatten.2 ⟨m, hm, hp⟩
      rw [List.flatten_splitBy] at this
      simp at this
      simp [this]))
  obtain ⟨rb, b1, b2⟩ := chunks_total (G := G) hlen hvol hc (R.splitBy together) (fun m hm => List.isChain_of_mem_splitBy hm)
    (fun m hm p hp => hrate p (by
      have : p ∈ (R.splitBy together).flatten := List.mem_flatten.2 ⟨m, hm, hp⟩
      rw [List.flatten_splitBy] at this
      simp [hmemB p this]))
  rw [List.flatten_splitBy] at a2 b2
  have hall : allSegs S.reverse = S.flatMap psegs := by simp [allSegs]
  have hback : ∀ k : List (How X), k.length = S.reverse.length → backwards S.reverse k = (List.zipWith (fun p k => write p.1 k) S k.reverse).flatten := by
    intro k hk
    unfold backwards
    rw [List.reverse_zipWith (by omega), List.reverse_reverse]
  rw [hall, hback ks g2] at g4 g5
  rw [List.head?_reverse] at g4 g5
  refine ⟨rb.flatten.reverse ++ kt.reverse, ks.reverse, ra.flatten.reverse, ra ++ ([ks ++ kt] ++ rb), ?_, ?_, ?_, ?_, ?_, g4, g5⟩
  · rw [hsplit]
    refine mapM_append_some a1 (mapM_append_some ?_ b1)
    rw [List.mapM_cons, g1]
    rfl
  · simp
  · have := congrArg List.length e
    simp only [List.length_reverse, List.length_append] at this ⊢
    omega
  · simpa using g2
  · simpa using a2

end
end Verif.Coasting
