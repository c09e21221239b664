import Verif.Flow.Spec
import Mathlib.Tactic.Linarith
import Mathlib.Tactic.FieldSimp
import Mathlib.Tactic.Ring
import Mathlib.Algebra.Order.Ring.Abs

/-! # Lemmas on replacing moves with pieces -/

namespace Verif.Flow

theorem total_eq (len : Pt → Pt → ℚ) (l : List Pt) : total len l = routeLength len l := by
  unfold routeLength
  induction l with
  | nil => rfl
  | cons a l ih =>
    cases l with
    | nil => rfl
    | cons b l => simpa [total] using ih

theorem vol_eq (d : Data) : d.vol = volume d := rfl

/-! ## Between -/

theorem Mid.refl_left (a b : Int) : Mid a a b := by unfold Mid; omega
theorem Mid.refl_right (a b : Int) : Mid a b b := by unfold Mid; omega
theorem Mid.symm {a m b : Int} (h : Mid a m b) : Mid b m a := by unfold Mid at *; omega
theorem Mid.trans {a r q b : Int} (h1 : Mid a r q) (h2 : Mid a q b) : Mid a r b := by unfold Mid at *; omega
theorem Mid.rest {a r q b : Int} (h1 : Mid a r q) (h2 : Mid a q b) : Mid r q b := by unfold Mid at *; omega

theorem Between.symm {a q b : Pt} (h : Between a q b) : Between b q a := ⟨h.1.symm, h.2.1.symm, h.2.2.symm⟩
theorem Between.trans {a r q b : Pt} (h1 : Between a r q) (h2 : Between a q b) : Between a r b :=
  ⟨h1.1.trans h2.1, h1.2.1.trans h2.2.1, h1.2.2.trans h2.2.2⟩
theorem Between.rest {a r q b : Pt} (h1 : Between a r q) (h2 : Between a q b) : Between r q b :=
  ⟨h1.1.rest h2.1, h1.2.1.rest h2.2.1, h1.2.2.rest h2.2.2⟩

/-! ## Near -/

theorem Near.left (a b : Pt) {e : ℚ} (he : 0 ≤ e) : Near e a b a :=
  ⟨0, le_refl _, by norm_num, by simpa using he, by simpa using he, by simpa using he⟩

theorem Near.right (a b : Pt) {e : ℚ} (he : 0 ≤ e) : Near e a b b :=
  ⟨1, by norm_num, le_refl _, by simpa using he, by simpa using he, by simpa using he⟩

theorem Near.mono {a b q : Pt} {e e' : ℚ} (h : Near e a b q) (he : e ≤ e') : Near e' a b q := by
  obtain ⟨r, h0, h1, hx, hy, hz⟩ := h
  exact ⟨r, h0, h1, hx.trans he, hy.trans he, hz.trans he⟩

/-- Rounding errors add up at most. -/
theorem near_coord {a b u v q r s t e f : ℚ} (ht0 : 0 ≤ t) (ht1 : t ≤ 1) (hu : |u - (a + r * (b - a))| ≤ e)
    (hv : |v - (a + s * (b - a))| ≤ e) (hq : |q - (u + t * (v - u))| ≤ f) :
    |q - (a + ((1 - t) * r + t * s) * (b - a))| ≤ e + f := by
  have e1 : q - (a + ((1 - t) * r + t * s) * (b - a)) =
      (q - (u + t * (v - u))) + ((1 - t) * (u - (a + r * (b - a))) + t * (v - (a + s * (b - a)))) := by ring
  rw [e1]
  refine (abs_add_le _ _).trans ?_
  have h2 : |(1 - t) * (u - (a + r * (b - a))) + t * (v - (a + s * (b - a)))| ≤ (1 - t) * e + t * e := by
    refine (abs_add_le _ _).trans (add_le_add ?_ ?_)
    · rw [abs_mul, abs_of_nonneg (by linarith : (0 : ℚ) ≤ 1 - t)]
      exact mul_le_mul_of_nonneg_left hu (by linarith)
    · rw [abs_mul, abs_of_nonneg ht0]
      exact mul_le_mul_of_nonneg_left hv ht0
  have h3 : (1 - t) * e + t * e = e := by ring
  linarith

theorem Near.comp {a b u v q : Pt} {e f : ℚ} (hu : Near e a b u) (hv : Near e a b v) (hq : Near f u v q) :
    Near (e + f) a b q := by
  obtain ⟨r, r0, r1, rx, ry, rz⟩ := hu
  obtain ⟨s, s0, s1, sx, sy, sz⟩ := hv
  obtain ⟨t, t0, t1, tx, ty, tz⟩ := hq
  refine ⟨(1 - t) * r + t * s, ?_, ?_, near_coord t0 t1 rx sx tx, near_coord t0 t1 ry sy ty,
    near_coord t0 t1 rz sz tz⟩
  · exact add_nonneg (mul_nonneg (by linarith) r0) (mul_nonneg t0 s0)
  · calc (1 - t) * r + t * s ≤ (1 - t) * 1 + t * 1 :=
          add_le_add (mul_le_mul_of_nonneg_left r1 (by linarith)) (mul_le_mul_of_nonneg_left s1 t0)
      _ = 1 := by ring

/-! ## The partition point -/

theorem trunc_spec (x : ℚ) : (0 ≤ x → 0 ≤ trunc x ∧ (trunc x : ℚ) ≤ x) ∧ (x ≤ 0 → trunc x ≤ 0 ∧ x ≤ trunc x) ∧
    |(trunc x : ℚ) - x| ≤ 1 := by
  unfold trunc
  by_cases h : 0 ≤ x
  · rw [if_pos h]
    have h1 := Int.floor_le x
    have h2 := (Int.lt_floor_add_one x).le
    refine ⟨fun _ => ⟨Int.floor_nonneg.2 h, h1⟩, fun h' => ?_, ?_⟩
    · have : x = 0 := le_antisymm h' h
      subst this; simp
    · rw [abs_le]; constructor <;> linarith
  · rw [if_neg h]
    have h1 := Int.le_ceil x
    have h2 := (Int.ceil_lt_add_one x).le
    refine ⟨fun h' => absurd h' h, fun h' => ⟨Int.ceil_le.2 (by simpa using h'), h1⟩, ?_⟩
    rw [abs_le]; constructor <;> linarith

theorem towards_coord (a b : Int) {r : ℚ} (h0 : 0 ≤ r) (h1 : r ≤ 1) :
    Mid a (a + trunc ((b - a : Int) * r)) b ∧
      |((a + trunc ((b - a : Int) * r) : Int) : ℚ) - (a + r * (b - a))| ≤ 1 := by
  obtain ⟨hp, hn, hc⟩ := trunc_spec (((b - a : Int) : ℚ) * r)
  constructor
  · unfold Mid
    rcases le_total a b with h | h
    · left
      have hd : (0 : ℚ) ≤ ((b - a : Int) : ℚ) := by exact_mod_cast sub_nonneg.2 h
      obtain ⟨t0, t1⟩ := hp (mul_nonneg hd h0)
      have : (trunc (((b - a : Int) : ℚ) * r) : ℚ) ≤ ((b - a : Int) : ℚ) :=
        t1.trans (mul_le_of_le_one_right hd h1)
      have : trunc (((b - a : Int) : ℚ) * r) ≤ b - a := by exact_mod_cast this
      omega
    · right
      have hd : ((b - a : Int) : ℚ) ≤ 0 := by exact_mod_cast sub_nonpos.2 h
      obtain ⟨t0, t1⟩ := hn (mul_nonpos_of_nonpos_of_nonneg hd h0)
      have h3 : ((b - a : Int) : ℚ) ≤ ((b - a : Int) : ℚ) * r := by nlinarith
      have : ((b - a : Int) : ℚ) ≤ (trunc (((b - a : Int) : ℚ) * r) : ℚ) := h3.trans t1
      have : b - a ≤ trunc (((b - a : Int) : ℚ) * r) := by exact_mod_cast this
      omega
  · have e : ((a + trunc ((b - a : Int) * r) : Int) : ℚ) - (a + r * (b - a))
        = (trunc (((b - a : Int) : ℚ) * r) : ℚ) - ((b - a : Int) : ℚ) * r := by push_cast; ring
    rw [e]; exact hc

theorem towards_between (a b : Pt) {r : ℚ} (h0 : 0 ≤ r) (h1 : r ≤ 1) : Between a (a.towards b r) b :=
  ⟨(towards_coord a.x b.x h0 h1).1, (towards_coord a.y b.y h0 h1).1, (towards_coord a.z b.z h0 h1).1⟩

theorem towards_near (a b : Pt) {r : ℚ} (h0 : 0 ≤ r) (h1 : r ≤ 1) : Near 1 a b (a.towards b r) :=
  ⟨r, h0, h1, (towards_coord a.x b.x h0 h1).2, (towards_coord a.y b.y h0 h1).2, (towards_coord a.z b.z h0 h1).2⟩

theorem Near.swap {a b q : Pt} {e : ℚ} (h : Near e a b q) : Near e b a q := by
  obtain ⟨r, r0, r1, rx, ry, rz⟩ := h
  refine ⟨1 - r, by linarith, by linarith, ?_, ?_, ?_⟩
  · rw [show (q.x : ℚ) - (b.x + (1 - r) * (a.x - b.x)) = q.x - (a.x + r * (b.x - a.x)) by ring]; exact rx
  · rw [show (q.y : ℚ) - (b.y + (1 - r) * (a.y - b.y)) = q.y - (a.y + r * (b.y - a.y)) by ring]; exact ry
  · rw [show (q.z : ℚ) - (b.z + (1 - r) * (a.z - b.z)) = q.z - (a.z + r * (b.z - a.z)) by ring]; exact rz

/-! ## Leads -/

theorem Leads.ne_nil {a : Option Pt} {b : Pt} {g : List Move} (h : Leads a b g) : g ≠ [] := by
  cases h <;> simp

/-- Two routes with the corner between their ends. -/
theorem Leads.append {a q b : Pt} {g h : List Move} (h1 : Leads (some a) q g) (hq : Between a q b)
    (h2 : Leads (some q) b h) : Leads (some a) b (g ++ h) := by
  generalize hs : some a = sa at h1
  induction h1 generalizing a with
  | last m => exact hs ▸ Leads.step m hs.symm hq h2
  | @step a' b' m rest hsrc hmid hr ih =>
    have : a = a' := Option.some.inj hs
    subst this
    exact Leads.step m hsrc (hmid.trans hq) (ih (hmid.rest hq) h2 rfl)

/-- Where the moves of a route start. -/
theorem Leads.srcs {sa : Option Pt} {b : Pt} {g : List Move} (h : Leads sa b g) :
    ∀ x ∈ g, x.src = sa ∨ ∃ y ∈ g, x.src = some y.dst := by
  induction h with
  | last m => intro x hx; left; rw [List.mem_singleton.1 hx]
  | step m hsrc hmid hr ih =>
    intro x hx
    rcases List.mem_cons.1 hx with rfl | hx
    · exact Or.inl hsrc
    · rcases ih x hx with h | ⟨y, hy, h⟩
      · exact Or.inr ⟨m, by simp, h⟩
      · exact Or.inr ⟨y, by simp [hy], h⟩

theorem Leads.of_none {b : Pt} {g : List Move} (h : Leads none b g) : ∃ m, g = [m] ∧ m.src = none ∧ m.dst = b := by
  generalize hs : (none : Option Pt) = sa at h
  cases h with
  | last m => exact ⟨m, rfl, rfl, rfl⟩
  | step => cases hs

/-- Replacing every move of a route with pieces. -/
theorem Leads.comp {sa : Option Pt} {b : Pt} {g : List Move} (h : Leads sa b g) :
    ∀ gs : List (List Move), List.Forall₂ (fun m l => Leads m.src m.dst l) g gs → Leads sa b gs.flatten := by
  induction h with
  | last m =>
    intro gs hgs
    cases hgs with
    | cons h1 h2 => cases h2; simpa using h1
  | @step a b m rest hsrc hmid hr ih =>
    intro gs hgs
    cases hgs with
    | cons h1 h2 => rw [List.flatten_cons]; exact (hsrc ▸ h1).append hmid (ih _ h2)

/-! ## Pieces -/

theorem Pieces.refl (m : Move) (h : 0 < m.speed) : Pieces m [m] where
  leads := .last m
  data := by simp
  speed := by simpa using h
  near := by
    intro x hx a _
    rw [List.mem_singleton.1 hx]
    exact Near.right _ _ (by simp)
  travel := fun _ => rfl

theorem Pieces.slow {m m' : Move} (hv : 0 < volume m.data) (hs : m'.src = m.src) (hd : m'.dst = m.dst)
    (hdata : m'.data = m.data) (h0 : 0 < m'.speed) (h1 : m'.speed ≤ m.speed) : Pieces m [m'] where
  leads := hs ▸ hd ▸ .last m'
  data := by simpa using hdata
  speed := by simpa using ⟨h0, h1⟩
  near := by
    intro x hx a _
    rw [List.mem_singleton.1 hx, hd]
    exact Near.right _ _ (by simp)
  travel := fun h => absurd hv (not_lt.2 h)

theorem length_le_flatten {gs : List (List Move)} (hne : ∀ g ∈ gs, g ≠ []) :
    gs.length ≤ gs.flatten.length ∧ ∀ g ∈ gs, gs.length + g.length ≤ gs.flatten.length + 1 := by
  induction gs with
  | nil => simp
  | cons a gs ih =>
    obtain ⟨i1, i2⟩ := ih fun g hg => hne g (by simp [hg])
    have ha : 0 < a.length := List.length_pos_iff.2 (hne a (by simp))
    simp only [List.flatten_cons, List.length_append, List.length_cons]
    refine ⟨by omega, ?_⟩
    intro g hg
    rcases List.mem_cons.1 hg with rfl | hg
    · omega
    · have := i2 g hg; omega

theorem forall₂_mem_right {α β : Type} {R : α → β → Prop} {l : List α} {l' : List β} (h : List.Forall₂ R l l') :
    ∀ y ∈ l', ∃ x ∈ l, R x y := by
  induction h with
  | nil => simp
  | cons h1 _ ih =>
    intro y hy
    rcases List.mem_cons.1 hy with rfl | hy
    · exact ⟨_, by simp, h1⟩
    · obtain ⟨x, hx, hr⟩ := ih y hy
      exact ⟨x, by simp [hx], hr⟩

/-- Pieces of pieces are pieces. -/
theorem Pieces.comp {m : Move} {g : List Move} {gs : List (List Move)} (h : Pieces m g)
    (hgs : List.Forall₂ Pieces g gs) : Pieces m gs.flatten where
  leads := h.leads.comp gs (hgs.imp fun _ _ hp => hp.leads)
  data := by
    intro x hx
    obtain ⟨l, hl, hxl⟩ := List.mem_flatten.1 hx
    obtain ⟨y, hy, hp⟩ := forall₂_mem_right hgs l hl
    rw [hp.data x hxl, h.data y hy]
  speed := by
    intro x hx
    obtain ⟨l, hl, hxl⟩ := List.mem_flatten.1 hx
    obtain ⟨y, hy, hp⟩ := forall₂_mem_right hgs l hl
    exact ⟨(hp.speed x hxl).1, (hp.speed x hxl).2.trans (h.speed y hy).2⟩
  near := by
    intro x hx a ha
    obtain ⟨l, hl, hxl⟩ := List.mem_flatten.1 hx
    obtain ⟨y, hy, hp⟩ := forall₂_mem_right hgs l hl
    have hne : ∀ l ∈ gs, l ≠ [] := fun l hl => by
      obtain ⟨_, _, hp⟩ := forall₂_mem_right hgs l hl
      exact hp.leads.ne_nil
    have hlen := (length_le_flatten hne).2 l hl
    rw [← hgs.length_eq] at hlen
    have hg1 : 1 ≤ g.length := List.length_pos_iff.2 h.leads.ne_nil
    have hg1' : (0 : ℚ) ≤ g.length - 1 := by
      have : (1 : ℚ) ≤ g.length := by exact_mod_cast hg1
      linarith
    have hlen' : (g.length : ℚ) - 1 + (l.length - 1) ≤ gs.flatten.length - 1 := by
      have : ((g.length + l.length : Nat) : ℚ) ≤ ((gs.flatten.length + 1 : Nat) : ℚ) := by exact_mod_cast hlen
      push_cast at this
      linarith
    have hyd := h.near y hy a ha
    have hys : ∃ u, y.src = some u ∧ Near ((g.length : ℚ) - 1) a m.dst u := by
      rcases h.leads.srcs y hy with hs | ⟨z, hz, hs⟩
      · exact ⟨a, hs.trans ha, Near.left _ _ hg1'⟩
      · exact ⟨z.dst, hs, h.near z hz a ha⟩
    obtain ⟨u, hu, hun⟩ := hys
    exact (hun.comp hyd (hp.near x hxl u hu)).mono hlen'
  travel := by
    intro ht
    have := h.travel ht
    subst this
    cases hgs with
    | cons h1 h2 =>
      cases h2
      simpa using h1.travel ht

/-- A list of moves in which each was replaced with pieces. -/
def Replaced (l l' : List Move) : Prop := ∃ gs : List (List Move), l' = gs.flatten ∧ List.Forall₂ Pieces l gs

theorem Replaced.nil : Replaced [] [] := ⟨[], rfl, .nil⟩

theorem Replaced.append {a b a' b' : List Move} (h1 : Replaced a a') (h2 : Replaced b b') :
    Replaced (a ++ b) (a' ++ b') := by
  obtain ⟨g1, rfl, f1⟩ := h1
  obtain ⟨g2, rfl, f2⟩ := h2
  exact ⟨g1 ++ g2, by simp, List.rel_append f1 f2⟩

theorem Replaced.refl {l : List Move} (h : ∀ m ∈ l, 0 < m.speed) : Replaced l l := by
  induction l with
  | nil => exact .nil
  | cons m l ih =>
    exact Replaced.append (a := [m]) (a' := [m]) ⟨[[m]], rfl, .cons (.refl m (h m (by simp))) .nil⟩
      (ih fun x hx => h x (by simp [hx]))

theorem Replaced.split_append {a b l : List Move} (h : Replaced (a ++ b) l) :
    ∃ a' b', l = a' ++ b' ∧ Replaced a a' ∧ Replaced b b' := by
  obtain ⟨gs, rfl, f⟩ := h
  obtain ⟨g1, g2, f1, f2, rfl⟩ : ∃ g1 g2, List.Forall₂ Pieces a g1 ∧ List.Forall₂ Pieces b g2 ∧ gs = g1 ++ g2 := by
    induction a generalizing gs with
    | nil => exact ⟨[], gs, .nil, f, rfl⟩
    | cons x a ih =>
      cases f with
      | cons h1 h2 =>
        obtain ⟨g1, g2, f1, f2, rfl⟩ := ih _ h2
        exact ⟨_ :: g1, g2, .cons h1 f1, f2, rfl⟩
  exact ⟨g1.flatten, g2.flatten, by simp, ⟨g1, rfl, f1⟩, ⟨g2, rfl, f2⟩⟩

theorem Replaced.trans {a b c : List Move} (h1 : Replaced a b) (h2 : Replaced b c) : Replaced a c := by
  obtain ⟨gs, rfl, f⟩ := h1
  induction f generalizing c with
  | nil =>
    obtain ⟨gs', rfl, f'⟩ := h2
    cases f'
    exact ⟨[], rfl, .nil⟩
  | @cons m g l gs hp hf ih =>
    rw [List.flatten_cons] at h2
    obtain ⟨a', b', rfl, ⟨g1, rfl, f1⟩, r2⟩ := h2.split_append
    obtain ⟨g2, rfl, f2⟩ := ih r2
    exact ⟨g1.flatten :: g2, by simp, .cons (hp.comp f1) f2⟩

end Verif.Flow
