import Verif.Spiral.Model

/-! # What is expected of spirals -/

namespace Verif.Spiral

/-- The length of the way from a point through others. -/
def along (len : Pt → Pt → ℚ) : Pt → List Pt → ℚ
  | _, [] => 0
  | p0, p :: ps => len p0 p + along len p ps

/-- Lengths are not negative, and nothing only between a point and itself. -/
structure Lengths (len : Pt → Pt → ℚ) : Prop where
  nonneg : ∀ p q, 0 ≤ len p q
  zero : ∀ p q, len p q = 0 → p = q

/-- The moves go up from the point `o` at the height `z` to the point `e` at the height `z + t`: all of them extrude, none goes down, and the
height of each is in proportion to the length of the way that has been gone, to the nearest micron. -/
structure Climbs (len : Pt → Pt → ℚ) (z t : Int) (o e : Pt) (out : List Out) : Prop where
  extrudes : ∀ m ∈ out, m.flow.isSome
  rises : (z :: out.map Out.z).Pairwise (· ≤ ·)
  height : ∀ i m, out[i]? = some m →
    |((m.z - z : Int) : ℚ) - (t : ℚ) * along len o ((out.map Out.dst).take (i + 1)) / along len o (out.map Out.dst)| ≤ 1 / 2
  last : ∃ m, out.getLast? = some m ∧ m.dst = e ∧ m.z = z + t

/-- The vertices of a polygon that follow the one with the given index, once around and up to that one. -/
def once (wall : List Pt) (seam : Nat) : List Pt := wall.drop (seam + 1) ++ wall.take (seam + 1)

/-- A point lies on an edge, to less than a micron in each direction. -/
def OnEdge (x a b : Pt) : Prop :=
  ∃ s : ℚ, 0 ≤ s ∧ s ≤ 1 ∧ |(x.1 : ℚ) - (a.1 + s * (b.1 - a.1))| < 1 ∧ |(x.2 : ℚ) - (a.2 + s * (b.2 - a.2))| < 1

/-- A point is the one of an edge that is closest to `p`, to less than a micron in each direction: `s` says where the foot of `p` is on the
edge, or which end is before it. -/
def IsFoot (p a b x : Pt) : Prop :=
  ∃ s : ℚ, 0 ≤ s ∧ s ≤ 1 ∧ |(x.1 : ℚ) - (a.1 + s * (b.1 - a.1))| < 1 ∧ |(x.2 : ℚ) - (a.2 + s * (b.2 - a.2))| < 1 ∧
    (let dot : ℚ := (p.1 - a.1) * (b.1 - a.1) + (p.2 - a.2) * (b.2 - a.2)
     let square : ℚ := (b.1 - a.1) * (b.1 - a.1) + (b.2 - a.2) * (b.2 - a.2)
     s * square = dot ∨ s = 0 ∧ dot ≤ 0 ∨ s = 1 ∧ square ≤ dot)

/-- There is an edge from `a` to `b`. -/
def IsEdge (wall : List Pt) (a b : Pt) : Prop := ∃ i, wall[i]? = some a ∧ wall[(i + 1) % wall.length]? = some b

/-- The square of a distance. -/
def square (p q : Pt) : Int := (p.1 - q.1) * (p.1 - q.1) + (p.2 - q.2) * (p.2 - q.2)

/-- A point `x` is on the last wall, within two line widths of `p`, and no edge is closer; and `q` is on the way from it to `p`, by the
ratio `f`, to the nearest micron. Or else no edge is within two line widths, and `q` is `p`. -/
def Blends (w : Int) (lastWall : List Pt) (p : Pt) (f : ℚ) (q : Pt) : Prop :=
  (∃ x, (∃ a b, IsEdge lastWall a b ∧ OnEdge x a b) ∧ square x p ≤ (2 * w) * (2 * w) ∧
    (∀ a b, IsEdge lastWall a b → ∃ y, IsFoot p a b y ∧ square x p ≤ square y p) ∧
    |(q.1 : ℚ) - (x.1 + f * (p.1 - x.1))| ≤ 1 / 2 ∧ |(q.2 : ℚ) - (x.2 + f * (p.2 - x.2))| ≤ 1 / 2) ∨
  q = p ∧ ∀ a b, IsEdge lastWall a b → ∃ y, IsFoot p a b y ∧ (2 * w) * (2 * w) < square y p

/-- How the nozzle gets from the place `o` where the last layer ended to the edge from `a` to `b` behind the seam: by a move to the point of
the edge that is closest, or not at all if that is not 11 µm away (rounded). -/
def Joins (a b o : Pt) (out : List Out) : Prop :=
  ∃ x, IsFoot o a b x ∧ (11 * 11 - 11 < square x o ∧ out.map (fun m => (m.dst, m.flow)) = [(x, some 1)] ∨ square x o ≤ 11 * 11 - 11 ∧ out = [])

/-- The moves go round through the points: as far as `f` of the way from `o` round, the flow is a quarter and `f` of the rest on the bottom, and
1 elsewhere. The points are exact, or blend into the last wall's if that is wanted, except the last. -/
def Rounds (len : Pt → Pt → ℚ) (smooth : Bool) (w : Int) (lastWall : List Pt) (bottom : Bool) (o : Pt) (round : List Pt) (out : List Out) : Prop :=
  out.length = round.length ∧ ∀ i p m, round[i]? = some p → out[i]? = some m →
    let f := along len o (round.take (i + 1)) / along len o round
    m.flow = some (if bottom then 1 / 4 + 3 / 4 * f else 1) ∧
      if smooth = true ∧ bottom = false ∧ i + 1 < round.length then Blends w lastWall p f m.dst else m.dst = p

/-- The moves follow the points, with a flow that falls by how far (of a given length `all`) they have gone from `o`, rounded down to a
twentieth, and that ceases when it would be below a quarter, at the point with index `k`. They end before the first point that is 10 mm or
more after the one before that. -/
structure Tapers (len : Pt → Pt → ℚ) (all : ℚ) (o : Pt) (round : List Pt) (out : List Out) : Prop where
  points : out.map Out.dst <+: round
  flow : ∃ k, (∀ i m, out[i]? = some m → i < k → ∃ j : Int, m.flow = some ((j : ℚ) / 20) ∧
      (j : ℚ) / 20 ≤ 1 - along len o (round.take (i + 1)) / all ∧ 1 - along len o (round.take (i + 1)) / all < ((j : ℚ) + 1) / 20 ∧
      1 / 4 ≤ 1 - along len o (round.take (i + 1)) / all) ∧
    (∀ i m, out[i]? = some m → k ≤ i → m.flow = some 0 ∧ 1 - along len o (round.take (i + 1)) / all < 1 / 4) ∧
    ∀ i, i < round.length → (i < out.length ↔ along len o (round.take i) - along len o (round.take k) < 10)

/-- From layer `b` on, every layer has one wall that is not just a point, and is as thick as the one above is higher. -/
structure Vase (b : Nat) (layers : List Layer) : Prop where
  walls : ∀ (k : Nat) (l : Layer), b ≤ k → layers[k]? = some l → ∃ w, l.walls = [w] ∧ ∃ p ∈ w, ∃ q ∈ w, p ≠ q
  thick : ∀ (k : Nat) (l : Layer), b ≤ k → layers[k]? = some l → 0 ≤ l.thickness
  heights : ∀ (k : Nat) (l m : Layer), b ≤ k → layers[k]? = some l → layers[k + 1]? = some m → m.z = l.z + l.thickness

/-- One move after another: it does not go down, and if it is a travel, it goes nowhere. -/
def Follows (a b : Out) : Prop := a.z ≤ b.z ∧ (b.flow = none → b.dst = a.dst ∧ b.z = a.z)

end Verif.Spiral
