import Verif.Slicer.WaterLemmas
import Mathlib.Tactic.IntervalCases
import Mathlib.Data.List.GetD

/-! # The first phase on a watertight mesh: every walk returns to its start -/

namespace Verif.Slicer

variable {m : Mesh} {pick : List Nat → Option Nat} {tol : Tolerance} {z : Int}

/-- Segment number `k`. -/
def segAt (m : Mesh) (tol : Tolerance) (z : Int) (k : Nat) : Segment := (buildSegments m tol z).getD k default

/-- Number of segments. -/
def segCount (m : Mesh) (tol : Tolerance) (z : Int) : Nat := (buildSegments m tol z).length

def S (m : Mesh) (tol : Tolerance) (z : Int) (k : Nat) : Option Cut := startCut m tol z (segAt m tol z k)
def E (m : Mesh) (tol : Tolerance) (z : Int) (k : Nat) : Option Cut := stopCut m tol z (segAt m tol z k)

theorem getElem?_segAt {k : Nat} (h : k < segCount m tol z) : (buildSegments m tol z)[k]? = some (segAt m tol z k) := by
  unfold segAt
  rw [List.getElem?_eq_getElem h, List.getD_eq_getElem _ _ h]

theorem segAt_mem {k : Nat} (h : k < segCount m tol z) : segAt m tol z k ∈ buildSegments m tol z :=
  List.mem_of_getElem? (getElem?_segAt h)

/-- The table leads from the face of a segment to the segment. -/
theorem faceTable_segAt {k : Nat} (h : k < segCount m tol z) :
    faceTable (buildSegments m tol z) (segAt m tol z k).face = some k := by
  unfold faceTable
  rw [List.findIdx?_eq_some_iff_getElem]
  have e : segAt m tol z k = (buildSegments m tol z)[k] := by unfold segAt; rw [List.getD_eq_getElem _ _ h]
  refine ⟨h, by rw [e]; simp, ?_⟩
  intro j hj
  simp only [beq_iff_eq]
  intro hjk
  rw [e] at hjk
  have hnd : ((buildSegments m tol z).map Segment.face).Nodup := (segmentsFrom_nodup m tol z m.faces 0).1
  have h : k < (buildSegments m tol z).length := h
  have hj' : j < (buildSegments m tol z).length := lt_trans hj h
  have := (List.Nodup.getElem_inj_iff hnd (i := j) (j := k) (hi := by simpa using hj') (hj := by simpa using h)).1
    (by rw [List.getElem_map, List.getElem_map]; exact hjk)
  omega

theorem faceTable_some {f k : Nat} (h : faceTable (buildSegments m tol z) f = some k) :
    k < segCount m tol z ∧ (segAt m tol z k).face = f := by
  unfold faceTable at h
  rw [List.findIdx?_eq_some_iff_getElem] at h
  obtain ⟨h1, h2, _⟩ := h
  refine ⟨h1, ?_⟩
  unfold segAt
  rw [List.getD_eq_getElem _ _ h1]
  simpa using h2

theorem table_ok : TableOk (meshLayer m tol z) := by
  intro f i h
  exact (faceTable_some h).1

/-- What is known of a segment. -/
structure SegInfo (m : Mesh) (tol : Tolerance) (z : Int) (s : Segment) (fc : Face) : Prop where
  face : m.faces[s.face]? = some fc
  start : ∃ hi lo, (hi, lo) ∈ fc.edges ∧ Above m tol z hi ∧ ¬ Above m tol z lo ∧ startCut m tol z s = some (cutOf m tol z hi lo) ∧
      (s.start = cutPoint z (compensate tol z (m.vert hi).p) (compensate tol z (m.vert lo).p) ∨
       s.start = cutPoint z (compensate tol z (m.vert lo).p) (compensate tol z (m.vert hi).p))
  stop : ∃ (hi lo : Nat) (c : Option Nat), ((lo, hi), c) ∈ fc.edges.zip [fc.c0, fc.c1, fc.c2] ∧ Above m tol z hi ∧ ¬ Above m tol z lo ∧
      stopCut m tol z s = some (cutOf m tol z hi lo) ∧ s.endOther = c ∧
      s.endVertex = (if height m tol z lo = z then some lo else none) ∧
      (s.stop = cutPoint z (compensate tol z (m.vert hi).p) (compensate tol z (m.vert lo).p) ∨
       s.stop = cutPoint z (compensate tol z (m.vert lo).p) (compensate tol z (m.vert hi).p))

theorem segInfo {s : Segment} (hs : s ∈ buildSegments m tol z) : ∃ fc, SegInfo m tol z s fc := by
  obtain ⟨f, fc, h1, h2⟩ := (mem_buildSegments m tol z s).1 hs
  obtain ⟨h3, ⟨hi, lo, a1, a2, a3, a4, a5⟩, ⟨hi', lo', c, b1, b2, b3, b4, b5, b6, b7⟩⟩ := buildSegment_spec m tol z _ _ _ h2
  subst h3
  refine ⟨fc, h1, ⟨hi, lo, a1, a2, a3, ?_, a5⟩, ⟨hi', lo', c, b1, b2, b3, ?_, b5, b6, b7⟩⟩
  · unfold startCut; rw [h1]; exact a4
  · unfold stopCut; rw [h1]; exact b4

/-- The neighbour recorded at the edge where a segment ends. -/
theorem zip_nbr (hok : MeshOk pick m) {f : Nat} {fc : Face} (hf : m.faces[f]? = some fc) {a b : Nat} {c : Option Nat}
    (h : ((a, b), c) ∈ fc.edges.zip [fc.c0, fc.c1, fc.c2]) : (a, b) ∈ fc.edges ∧ c = neighbour pick m a b f := by
  refine ⟨(List.of_mem_zip h).1, ?_⟩
  obtain ⟨h0, h1, h2⟩ := hok.nbr f fc hf
  unfold Face.edges at h
  simp only [List.zip_cons_cons, List.zip_nil_right, List.mem_cons, Prod.mk.injEq, List.not_mem_nil, or_false] at h
  rcases h with ⟨⟨rfl, rfl⟩, rfl⟩ | ⟨⟨rfl, rfl⟩, rfl⟩ | ⟨⟨rfl, rfl⟩, rfl⟩ <;> assumption

theorem compXY (tol : Tolerance) (z : Int) (p : P3) : (compensate tol z p).x = p.x ∧ (compensate tol z p).y = p.y := by
  unfold compensate; split <;> exact ⟨rfl, rfl⟩

/-- Two cuts of the same edge are close to each other. -/
theorem cut_close {hi lo : Nat} (h1 : Above m tol z hi) (h2 : ¬ Above m tol z lo) {p q : P2}
    (hp : p = cutPoint z (compensate tol z (m.vert hi).p) (compensate tol z (m.vert lo).p) ∨
      p = cutPoint z (compensate tol z (m.vert lo).p) (compensate tol z (m.vert hi).p))
    (hq : q = cutPoint z (compensate tol z (m.vert hi).p) (compensate tol z (m.vert lo).p) ∨
      q = cutPoint z (compensate tol z (m.vert lo).p) (compensate tol z (m.vert hi).p)) :
    dist2 p q ≤ 10 * 10 := by
  unfold Above at h1 h2
  have key : ∀ y y' : Int, |interpolate z (height m tol z lo) (height m tol z hi) y y' -
      interpolate z (height m tol z hi) (height m tol z lo) y' y| ≤ 1 := fun y y' =>
    interp_abs_dir (by omega) (by omega) (by omega)
  have sq : ∀ a b : Int, |a - b| ≤ 1 → (a - b) * (a - b) ≤ 1 ∧ (b - a) * (b - a) ≤ 1 := by
    intro a b h
    rw [abs_le] at h
    constructor <;> nlinarith
  have hx := sq _ _ (key (m.vert lo).p.x (m.vert hi).p.x)
  have hy := sq _ _ (key (m.vert lo).p.y (m.vert hi).p.y)
  rcases hp with rfl | rfl <;> rcases hq with rfl | rfl <;> unfold dist2 cutPoint <;>
    simp only [compensate_z, (compXY tol z _).1, (compXY tol z _).2, sub_self] <;> omega

/-- A cut at a vertex on the plane is close to the vertex. -/
theorem cut_vertex {hi lo : Nat} (h1 : Above m tol z hi) (h2 : height m tol z lo = z) {p : P2}
    (hp : p = cutPoint z (compensate tol z (m.vert hi).p) (compensate tol z (m.vert lo).p) ∨
      p = cutPoint z (compensate tol z (m.vert lo).p) (compensate tol z (m.vert hi).p)) :
    |p.x - (m.vert lo).p.x| ≤ 1 ∧ |p.y - (m.vert lo).p.y| ≤ 1 := by
  unfold Above at h1
  rcases hp with rfl | rfl <;> unfold cutPoint <;> simp only [compensate_z, (compXY tol z _).1, (compXY tol z _).2]
  · have hf : ∀ a b : Int, |interpolate z (height m tol z hi) (height m tol z lo) a b - b| ≤ 1 := by
      intro a b
      have := interp_far_down (x0 := height m tol z hi) (x1 := height m tol z lo) (y0 := a) (y1 := b) (by omega)
      rw [h2] at this ⊢
      exact this
    exact ⟨hf _ _, hf _ _⟩
  · have hf : ∀ a b : Int, interpolate z (height m tol z lo) (height m tol z hi) b a = b := by
      intro a b
      have := interp_near (x0 := height m tol z lo) (x1 := height m tol z hi) (y0 := b) (y1 := a) (by omega)
      rw [h2] at this ⊢
      exact this
    rw [hf, hf]; simp

theorem cutOf_vertex {hi lo v : Nat} (h : cutOf m tol z hi lo = .vertex v) : lo = v ∧ height m tol z lo = z := by
  unfold cutOf at h
  split at h
  · rename_i hz; exact ⟨by simpa using h, hz⟩
  · simp at h

theorem cutOf_edge {hi lo a b : Nat} (h : cutOf m tol z hi lo = .edge a b) : hi = a ∧ lo = b ∧ height m tol z lo ≠ z := by
  unfold cutOf at h
  split at h
  · simp at h
  · rename_i hz; simp at h; exact ⟨h.1, h.2, hz⟩

theorem near_start {s : Segment} (hs : s ∈ buildSegments m tol z) {v : Nat} (h : startCut m tol z s = some (.vertex v)) :
    |s.start.x - (m.vert v).p.x| ≤ 1 ∧ |s.start.y - (m.vert v).p.y| ≤ 1 := by
  obtain ⟨fc, hi⟩ := segInfo hs
  obtain ⟨hi, lo, _, h2, _, h4, h5⟩ := hi.start
  rw [h, Option.some.injEq] at h4
  obtain ⟨rfl, hz⟩ := cutOf_vertex h4.symm
  exact cut_vertex h2 hz h5

theorem near_stop {s : Segment} (hs : s ∈ buildSegments m tol z) {v : Nat} (h : stopCut m tol z s = some (.vertex v)) :
    |s.stop.x - (m.vert v).p.x| ≤ 1 ∧ |s.stop.y - (m.vert v).p.y| ≤ 1 := by
  obtain ⟨fc, hi⟩ := segInfo hs
  obtain ⟨hi, lo, _, _, h2, _, h4, _, _, h5⟩ := hi.stop
  rw [h, Option.some.injEq] at h4
  obtain ⟨rfl, hz⟩ := cutOf_vertex h4.symm
  exact cut_vertex h2 hz h5

theorem close_of_near {p q : P2} {x y : Int} (hp : |p.x - x| ≤ 1 ∧ |p.y - y| ≤ 1) (hq : |q.x - x| ≤ 1 ∧ |q.y - y| ≤ 1) :
    dist2 p q ≤ 10 * 10 := by
  unfold dist2
  simp only [abs_le] at hp hq
  have h1 : -2 ≤ p.x - q.x ∧ p.x - q.x ≤ 2 := by omega
  have h2 : -2 ≤ p.y - q.y ∧ p.y - q.y ≤ 2 := by omega
  nlinarith

/-- If `p` is within ten units of a point next to which `q` is, `p` and `q` are at most thirteen units apart. -/
theorem far_of_near {p q r : P2} {x y : Int} (hr : |r.x - x| ≤ 1 ∧ |r.y - y| ≤ 1) (hq : |q.x - x| ≤ 1 ∧ |q.y - y| ≤ 1)
    (h : dist2 r p ≤ 10 * 10) : dist2 p q ≤ 13 * 13 := by
  unfold dist2 at *
  simp only [abs_le] at hr hq
  have h1 : -2 ≤ r.x - q.x ∧ r.x - q.x ≤ 2 := by omega
  have h2 : -2 ≤ r.y - q.y ∧ r.y - q.y ≤ 2 := by omega
  have e1 : p.x - q.x = (r.x - q.x) - (r.x - p.x) := by ring
  have e2 : p.y - q.y = (r.y - q.y) - (r.y - p.y) := by ring
  rw [e1, e2]
  generalize r.x - q.x = a at *
  generalize r.y - q.y = b at *
  generalize r.x - p.x = c at *
  generalize r.y - p.y = d at *
  have hc : -10 ≤ c ∧ c ≤ 10 := by constructor <;> nlinarith
  have hd : -10 ≤ d ∧ d ≤ 10 := by constructor <;> nlinarith
  have hcd : (c - d) * (c - d) ≥ 0 := mul_self_nonneg _
  have hcd' : (c + d) * (c + d) ≥ 0 := mul_self_nonneg _
  have k1 : c + d ≤ 14 := by nlinarith
  have k2 : -14 ≤ c + d := by nlinarith
  have k3 : c - d ≤ 14 := by nlinarith
  have k4 : -14 ≤ c - d := by nlinarith
  have ha : a * a ≤ 4 := by nlinarith
  have hb : b * b ≤ 4 := by nlinarith
  have hac : -(a * c) - (b * d) ≤ 28 := by
    obtain ⟨a1, a2⟩ := h1
    obtain ⟨b1, b2⟩ := h2
    interval_cases a <;> interval_cases b <;> omega
  nlinarith

/-! ## The next segment -/

theorem tryFace_segAt (added : Nat → Bool) (s : Segment) (start k : Nat) (hk : k < segCount m tol z)
    (hd : dist2 s.stop (segAt m tol z k).start ≤ 10 * 10) (hor : k = start ∨ added k = false) :
    tryFace (meshLayer m tol z) added s (segAt m tol z k).face start = .ok (some k) := by
  unfold tryFace
  have h1 : (meshLayer m tol z).table (segAt m tol z k).face = some k := faceTable_segAt hk
  have h2 : (meshLayer m tol z).segs[k]? = some (segAt m tol z k) := getElem?_segAt hk
  rw [h1]
  dsimp only
  rw [h2]
  dsimp only
  rw [if_pos ((shorterThen_iff _ _ gap1 (by decide)).2 hd)]
  rcases hor with rfl | h
  · rw [if_pos rfl]
  · by_cases hs : k = start
    · rw [if_pos hs, hs]
    · rw [if_neg hs, if_neg (by rw [h]; simp)]

/-- The loop over the faces at a vertex finds something if there is something, and the start if that is possible. -/
theorem tryFaces_finds {L : Layer} (hT : TableOk L) (added : Nat → Bool) (s : Segment) (start : Nat) (fs : List Nat) :
    ∀ next : Option Nat, ∃ r, tryFaces L added s start fs next = .ok r ∧
      ((∃ f ∈ fs, tryFace L added s f start = .ok (some start)) → r = some start) ∧
      ((next.isSome ∨ ∃ f ∈ fs, ∃ j, tryFace L added s f start = .ok (some j)) → r.isSome) ∧
      ∀ j, r = some j → next = some j ∨ ∃ f ∈ fs, tryFace L added s f start = .ok (some j) := by
  induction fs with
  | nil => intro next; exact ⟨next, rfl, by simp, by simp, fun j h => Or.inl h⟩
  | cons f fs ih =>
    intro next
    obtain ⟨r, hr, _⟩ := tryFace_spec hT added s f start
    unfold tryFaces
    rw [hr]
    cases r with
    | none =>
      obtain ⟨r, h1, h2, h3, h4⟩ := ih next
      refine ⟨r, h1, ?_, ?_, ?_⟩
      · rintro ⟨g, hg, hgs⟩
        rcases List.mem_cons.1 hg with rfl | hg
        · rw [hr] at hgs; simp at hgs
        · exact h2 ⟨g, hg, hgs⟩
      · rintro (h | ⟨g, hg, j, hgs⟩)
        · exact h3 (Or.inl h)
        · rcases List.mem_cons.1 hg with rfl | hg
          · rw [hr] at hgs; simp at hgs
          · exact h3 (Or.inr ⟨g, hg, j, hgs⟩)
      · intro j hj
        rcases h4 j hj with h | ⟨g, hg, h⟩
        · exact Or.inl h
        · exact Or.inr ⟨g, List.mem_cons_of_mem _ hg, h⟩
    | some i =>
      dsimp only
      by_cases hi : i = start
      · rw [if_pos hi]
        refine ⟨some start, rfl, fun _ => rfl, fun _ => rfl, fun j hj => Or.inr ⟨f, List.mem_cons_self, ?_⟩⟩
        rw [hr, hi, hj]
      · rw [if_neg hi]
        obtain ⟨r, h1, h2, h3, h4⟩ := ih (some i)
        refine ⟨r, h1, ?_, fun _ => h3 (Or.inl rfl), ?_⟩
        · rintro ⟨g, hg, hgs⟩
          rcases List.mem_cons.1 hg with rfl | hg
          · rw [hr] at hgs; simp at hgs; exact absurd hgs hi
          · exact h2 ⟨g, hg, hgs⟩
        · intro j hj
          rcases h4 j hj with h | ⟨g, hg, h⟩
          · refine Or.inr ⟨f, List.mem_cons_self, ?_⟩; rw [hr, h]
          · exact Or.inr ⟨g, List.mem_cons_of_mem _ hg, h⟩

/-- A face with a corner on the plane that has a segment: the segment starts or ends at that corner. -/
theorem starts_or_ends {s : Segment} {fc : Face} (hi : SegInfo m tol z s fc) {v : Nat} (hv : fc.has v = true) (hz : height m tol z v = z)
    (hcross : fc.Crosses m tol z) :
    startCut m tol z s = some (.vertex v) ∨ (stopCut m tol z s = some (.vertex v) ∧ s.endVertex = some v) := by
  obtain ⟨hi1, lo1, e1, a1, n1, c1, -⟩ := hi.start
  obtain ⟨hi2, lo2, c, e2, a2, n2, c2, -, v2, -⟩ := hi.stop
  have e2 := (List.of_mem_zip e2).1
  by_cases h1 : lo1 = v
  · left; rw [c1]; unfold cutOf; rw [h1, if_pos hz]
  · by_cases h2 : lo2 = v
    · right; subst h2; rw [c2, v2]; unfold cutOf; rw [if_pos hz, if_pos hz]; exact ⟨rfl, rfl⟩
    · exfalso
      have nv : ¬ Above m tol z v := by unfold Above; omega
      have k1 : hi1 ≠ v := by rintro rfl; exact nv a1
      have k2 : hi2 ≠ v := by rintro rfl; exact nv a2
      obtain ⟨-, hb⟩ := hcross
      unfold Above at a1 a2 n1 n2
      unfold Face.edges at *
      unfold Face.has at *
      simp only [Bool.or_eq_true, beq_iff_eq] at hv
      simp only [List.mem_cons, Prod.mk.injEq, List.not_mem_nil, or_false] at e1 e2
      rcases hv with (rfl | rfl) | rfl <;> rcases e1 with ⟨rfl, rfl⟩ | ⟨rfl, rfl⟩ | ⟨rfl, rfl⟩ <;>
        rcases e2 with ⟨hx, hy⟩ | ⟨hx, hy⟩ | ⟨hx, hy⟩ <;> subst hx <;> simp_all

theorem start_face {s : Segment} {fc : Face} (hi : SegInfo m tol z s fc) {v : Nat} (h : startCut m tol z s = some (.vertex v)) :
    fc.has v = true := by
  obtain ⟨hi1, lo1, e1, a1, n1, c1, -⟩ := hi.start
  rw [h, Option.some.injEq] at c1
  obtain ⟨rfl, _⟩ := cutOf_vertex c1.symm
  exact (has_of_edge e1).2

theorem crosses_of_mem {s : Segment} (hs : s ∈ buildSegments m tol z) {fc : Face} (hf : m.faces[s.face]? = some fc) :
    fc.Crosses m tol z := by
  obtain ⟨f', fc', h1, h2⟩ := (mem_buildSegments m tol z s).1 hs
  have h3 := (buildSegment_spec m tol z _ _ _ h2).1
  rw [h3, h1] at hf
  obtain rfl := Option.some.inj hf
  rw [← buildSegment_isSome m tol z f', h2]
  rfl

theorem next_ok (hok : MeshOk pick m) (hw : m.Watertight) (hlong : NoShort m tol z) (added : Nat → Bool) (start i : Nat)
    (hi : i < segCount m tol z) (hst : start < segCount m tol z)
    (hex : ∃ k, k < segCount m tol z ∧ S m tol z k = E m tol z i ∧ (k = start ∨ added k = false)) :
    ∃ j, nextSegment (meshLayer m tol z) added (segAt m tol z i) start = .ok (some j) ∧ j < segCount m tol z ∧
      S m tol z j = E m tol z i ∧ (j = start ∨ added j = false) ∧ (E m tol z i = S m tol z start → j = start) := by
  obtain ⟨k, hk, hkS, hkor⟩ := hex
  have hmi := segAt_mem hi
  obtain ⟨fc, info⟩ := segInfo hmi
  obtain ⟨h, l, c, e, a, n, cut, co, ev, pt⟩ := info.stop
  obtain ⟨he, hc⟩ := zip_nbr hok info.face e
  unfold E S at *
  rw [cut] at hkS ⊢
  unfold nextSegment
  by_cases hz : height m tol z l = z
  · -- the segment ends at a vertex
    rw [ev, if_pos hz]
    dsimp only
    have hcut : cutOf m tol z h l = .vertex l := by unfold cutOf; rw [if_pos hz]
    rw [hcut] at hkS cut ⊢
    have hstop := near_stop hmi cut
    -- segments that start here are found
    have found : ∀ j, j < segCount m tol z → startCut m tol z (segAt m tol z j) = some (.vertex l) → (j = start ∨ added j = false) →
        ∃ f ∈ (meshLayer m tol z).conn l, tryFace (meshLayer m tol z) added (segAt m tol z i) f start = .ok (some j) := by
      intro j hj hjS hjor
      obtain ⟨gc, ginfo⟩ := segInfo (segAt_mem hj)
      refine ⟨(segAt m tol z j).face, (hok.conn l _).2 ⟨gc, ginfo.face, start_face ginfo hjS⟩, ?_⟩
      exact tryFace_segAt added _ start j hj (close_of_near hstop (near_start (segAt_mem hj) hjS)) hjor
    obtain ⟨r, r1, r2, r3, r4⟩ := tryFaces_finds (table_ok (m := m) (tol := tol) (z := z)) added (segAt m tol z i) start
      ((meshLayer m tol z).conn l) none
    obtain ⟨f, hf, hfk⟩ := found k hk hkS hkor
    obtain ⟨j, rfl⟩ := Option.isSome_iff_exists.1 (r3 (Or.inr ⟨f, hf, k, hfk⟩))
    refine ⟨j, r1, ?_⟩
    obtain ⟨g, hg, hgj⟩ := (r4 j rfl).resolve_left (by simp)
    obtain ⟨r', q1, q2⟩ := tryFace_spec (table_ok (m := m) (tol := tol) (z := z)) added (segAt m tol z i) g start
    rw [hgj] at q1
    obtain ⟨q3, ⟨t, ht, hd⟩, hor⟩ := q2 j (by injection q1 with q1; exact q1.symm)
    obtain ⟨hj, hjf⟩ := faceTable_some q3
    have ht : t = segAt m tol z j := by
      have := getElem?_segAt hj
      have e2 : (meshLayer m tol z).segs[j]? = some t := ht
      have e3 : (meshLayer m tol z).segs[j]? = (buildSegments m tol z)[j]? := rfl
      rw [e3, this] at e2
      exact (Option.some.inj e2).symm
    subst ht
    refine ⟨hj, ?_, hor, ?_⟩
    · obtain ⟨gc, hgc, hgl⟩ := (hok.conn l g).1 hg
      obtain ⟨gc', ginfo⟩ := segInfo (segAt_mem hj)
      have : gc' = gc := by
        have := ginfo.face
        rw [hjf, hgc] at this
        exact (Option.some.inj this).symm
      subst this
      rcases starts_or_ends ginfo hgl hz (crosses_of_mem (segAt_mem hj) ginfo.face) with hs | ⟨hs, -⟩
      · exact hs
      · exfalso
        have := hlong _ (segAt_mem hj) ⟨l, hs⟩
        have := far_of_near hstop (near_stop (segAt_mem hj) hs) hd
        omega
    · intro heq
      obtain ⟨f', hf', hfs⟩ := found start hst heq.symm (Or.inl rfl)
      have := r2 ⟨f', hf', hfs⟩
      exact Option.some.inj this
  · -- the segment ends within an edge
    rw [ev, if_neg hz]
    dsimp only
    rw [co, hc]
    obtain ⟨g, gc, hg, hge, hnb⟩ := neighbour_eq hok hw info.face he
    rw [hnb]
    dsimp only
    have hcut : cutOf m tol z h l = .edge h l := by unfold cutOf; rw [if_neg hz]
    rw [hcut] at hkS ⊢
    -- a segment that starts here belongs to the neighbour
    have uniq : ∀ j, j < segCount m tol z → startCut m tol z (segAt m tol z j) = some (.edge h l) →
        j = k ∧ (segAt m tol z j).face = g ∧ dist2 (segAt m tol z i).stop (segAt m tol z j).start ≤ 10 * 10 := by
      have aux : ∀ j, j < segCount m tol z → startCut m tol z (segAt m tol z j) = some (.edge h l) →
        (segAt m tol z j).face = g ∧ dist2 (segAt m tol z i).stop (segAt m tol z j).start ≤ 10 * 10 := by
        intro j hj hjS
        obtain ⟨jc, jinfo⟩ := segInfo (segAt_mem hj)
        obtain ⟨hi', lo', e', a', n', c', p'⟩ := jinfo.start
        rw [hjS, Option.some.injEq] at c'
        obtain ⟨rfl, rfl, _⟩ := cutOf_edge c'.symm
        exact ⟨face_unique hw jinfo.face hg e' hge, cut_close a n pt p'⟩
      intro j hj hjS
      have h1 := aux j hj hjS
      have h2 := aux k hk hkS
      refine ⟨?_, h1⟩
      have t1 := faceTable_segAt hj
      have t2 := faceTable_segAt hk
      rw [h1.1] at t1
      rw [h2.1, t1] at t2
      exact Option.some.inj t2
    obtain ⟨-, hkf, hkd⟩ := uniq k hk hkS
    refine ⟨k, ?_, hk, hkS, hkor, fun heq => (uniq start hst heq.symm).1.symm⟩
    have := tryFace_segAt added (segAt m tol z i) start k hk hkd hkor
    rw [hkf] at this
    exact this

/-! ## The walk -/

/-- How many of the segments counted by `p` start (end) at `n`. -/
def starts (m : Mesh) (tol : Tolerance) (z : Int) (p : Nat → Bool) (n : Option Cut) : Nat :=
  (List.range (segCount m tol z)).countP fun k => p k && decide (S m tol z k = n)

def ends (m : Mesh) (tol : Tolerance) (z : Int) (p : Nat → Bool) (n : Option Cut) : Nat :=
  (List.range (segCount m tol z)).countP fun k => p k && decide (E m tol z k = n)

/-- One if the condition holds. -/
def ind (p : Prop) [Decidable p] : Nat := if p then 1 else 0

theorem countP_mark (n : Nat) (p q : Nat → Bool) (i : Nat) (hi : i < n) (hp : p i = false) :
    (List.range n).countP (fun k => (if k = i then true else p k) && q k) = (List.range n).countP (fun k => p k && q k) + ind (q i = true) := by
  induction n with
  | zero => omega
  | succ n ih =>
    rw [List.range_succ, List.countP_append, List.countP_append, List.countP_singleton, List.countP_singleton]
    by_cases h : i = n
    · subst h
      have : (List.range i).countP (fun k => (if k = i then true else p k) && q k) = (List.range i).countP (fun k => p k && q k) := by
        apply List.countP_congr
        intro k hk
        rw [List.mem_range] at hk
        rw [if_neg (by omega)]
      rw [this, if_pos rfl, hp]
      unfold ind
      simp
    · have e : (if n = i then true else p n) = p n := if_neg (fun e => h e.symm)
      rw [ih (by omega), e]
      omega

theorem all_balanced (h : m.Closed) (n : Cut) : starts m tol z (fun _ => true) (some n) = ends m tol z (fun _ => true) (some n) := by
  have hb := segmentsFrom_balance m tol z n m.faces [] rfl
  have h2 := downs_eq_ups_of_closed m tol z n h
  unfold Mesh.edges at h2
  rw [h2] at hb
  have hb := Nat.add_left_cancel hb
  have hmap : buildSegments m tol z = (List.range (segCount m tol z)).map (segAt m tol z) := by
    apply List.ext_getElem
    · simp [segCount]
    · intro k h1 h2
      rw [List.getElem_map, List.getElem_range]
      unfold segAt
      rw [List.getD_eq_getElem _ _ h1]
  have hb : (buildSegments m tol z).countP (fun s => stopCut m tol z s = some n) =
    (buildSegments m tol z).countP (fun s => startCut m tol z s = some n) := hb
  rw [hmap, List.countP_map, List.countP_map] at hb
  unfold starts ends
  simp only [Bool.true_and]
  exact hb.symm

/-- Every segment ends somewhere. -/
theorem E_some {i : Nat} (h : i < segCount m tol z) : ∃ n, E m tol z i = some n := by
  obtain ⟨fc, info⟩ := segInfo (segAt_mem h)
  obtain ⟨_, _, _, _, _, _, h4, _⟩ := info.stop
  exact ⟨_, h4⟩

/-- What has been used is balanced. -/
def Balanced (m : Mesh) (tol : Tolerance) (z : Int) (p : Nat → Bool) : Prop := ∀ n, starts m tol z p n = ends m tol z p n

theorem starts_le {p : Nat → Bool} {n : Option Cut} (h : ∀ k, k < segCount m tol z → S m tol z k = n → p k = true) :
    starts m tol z (fun _ => true) n ≤ starts m tol z p n := by
  unfold starts
  apply List.countP_mono_left
  intro k hk hS
  simp only [Bool.true_and, decide_eq_true_eq] at hS
  simp [h k (List.mem_range.1 hk) hS, hS]

theorem ends_le (p : Nat → Bool) (n : Option Cut) : ends m tol z p n ≤ ends m tol z (fun _ => true) n := by
  unfold ends
  apply List.countP_mono_left
  intro k _ h
  simp at h
  simp [h.2]

theorem loop_closes (hok : MeshOk pick m) (hw : m.Watertight) (hlong : NoShort m tol z) (start : Nat) (hst : start < segCount m tol z)
    (fuel : Nat) : ∀ (i : Nat) (added : Nat → Bool) (pts : List P2), i < segCount m tol z → added i = false →
      unused (segCount m tol z) added ≤ fuel →
      (∀ n, starts m tol z added n + ind (S m tol z i = n) = ends m tol z added n + ind (S m tol z start = n)) →
      ∃ pts' added', loopFrom (meshLayer m tol z) start fuel i added pts = .ok (true, pts', added') ∧ Balanced m tol z added' := by
  induction fuel with
  | zero =>
    intro i added pts hi ha hu
    have := unused_mark hi ha
    omega
  | succ fuel ih =>
    intro i added pts hi ha hu hinv
    unfold loopFrom
    have hseg : (meshLayer m tol z).segs[i]? = some (segAt m tol z i) := getElem?_segAt hi
    rw [hseg]
    dsimp only
    have hS : ∀ n, starts m tol z (fun j => if j = i then true else added j) n = starts m tol z added n + ind (S m tol z i = n) := by
      intro n
      have := countP_mark (segCount m tol z) added (fun k => decide (S m tol z k = n)) i hi ha
      unfold starts
      rw [this]
      simp [ind]
    have hE : ∀ n, ends m tol z (fun j => if j = i then true else added j) n = ends m tol z added n + ind (E m tol z i = n) := by
      intro n
      have := countP_mark (segCount m tol z) added (fun k => decide (E m tol z k = n)) i hi ha
      unfold ends
      rw [this]
      simp [ind]
    have hu' := unused_mark hi ha
    generalize hadd : (fun j => if j = i then true else added j) = added' at *
    have hinv' : ∀ n, starts m tol z added' n + ind (E m tol z i = n) = ends m tol z added' n + ind (S m tol z start = n) := by
      intro n
      have := hinv n
      rw [hS, hE]
      omega
    have hex : ∃ k, k < segCount m tol z ∧ S m tol z k = E m tol z i ∧ (k = start ∨ added' k = false) := by
      by_cases heq : S m tol z start = E m tol z i
      · exact ⟨start, hst, heq, Or.inl rfl⟩
      · by_contra hno
        push Not at hno
        obtain ⟨n, hn⟩ := E_some hi
        have h1 : starts m tol z (fun _ => true) (E m tol z i) ≤ starts m tol z added' (E m tol z i) := by
          apply starts_le
          intro k hk hkS
          have := (hno k hk hkS).2
          simpa using this
        have h2 := ends_le (m := m) (tol := tol) (z := z) added' (E m tol z i)
        have h3 : starts m tol z (fun _ => true) (E m tol z i) = ends m tol z (fun _ => true) (E m tol z i) := by
          rw [hn]; exact all_balanced hw.closed n
        have h4 := hinv' (E m tol z i)
        unfold ind at h4
        rw [if_pos rfl, if_neg heq] at h4
        omega
    obtain ⟨j, hj, hjlt, hjS, hjor, hjst⟩ := next_ok hok hw hlong added' start i hi hst hex
    rw [hj]
    dsimp only
    by_cases hjs : j = start
    · rw [if_pos hjs]
      refine ⟨_, _, rfl, fun n => ?_⟩
      have := hinv' n
      rw [← hjS, hjs] at this
      omega
    · rw [if_neg hjs]
      refine ih j added' _ hjlt (hjor.resolve_left hjs) (by omega) (fun n => ?_)
      rw [hjS]
      exact hinv' n

theorem loops_close (hok : MeshOk pick m) (hw : m.Watertight) (hlong : NoShort m tol z) (fuel : Nat) (hfuel : segCount m tol z ≤ fuel)
    (is : List Nat) : ∀ r : Loops, (∀ i ∈ is, i < segCount m tol z) → Balanced m tol z r.added →
      ∃ r', makeLoopsFrom (meshLayer m tol z) fuel is r = .ok r' ∧ r'.opens = r.opens := by
  induction is with
  | nil => intro r _ _; exact ⟨r, rfl, rfl⟩
  | cons i is ih =>
    intro r hr hb
    have hr' : ∀ j ∈ is, j < segCount m tol z := fun j hj => hr j (List.mem_cons_of_mem _ hj)
    have hi := hr i List.mem_cons_self
    unfold makeLoopsFrom
    by_cases ha : r.added i = true
    · rw [if_pos ha]; exact ih r hr' hb
    · rw [if_neg ha]
      have hseg : (meshLayer m tol z).segs[i]? = some (segAt m tol z i) := getElem?_segAt hi
      have hu : unused (segCount m tol z) r.added ≤ fuel := by
        refine le_trans ?_ hfuel
        unfold unused
        exact le_trans (List.length_filter_le _ _) (by simp)
      obtain ⟨pts', added', h1, h2⟩ := loop_closes hok hw hlong i hi fuel i r.added [(segAt m tol z i).start] hi (by simpa using ha) hu
        (fun n => by rw [hb n])
      unfold makeLoop
      rw [hseg]
      dsimp only
      rw [h1]
      dsimp only
      obtain ⟨r', h3, h4⟩ := ih { r with added := added', polygons := r.polygons ++ [pts'] } hr' h2
      exact ⟨r', h3, h4⟩

end Verif.Slicer
