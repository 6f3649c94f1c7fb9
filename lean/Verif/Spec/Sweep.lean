import Verif.Spec.Geom
import Verif.Model.Line2
/-!
# Order of a sweep line (specification)
-/
namespace Verif.Spec
open Verif Verif.Model
variable {K : Type} [Field K] [LinearOrder K]

/-- the sweep line comes to `a` before it comes to `b`: smaller `y`, or the same `y` and smaller `x` -/
def SweepBefore (a b : V2 K) : Prop := a.y < b.y ∨ (a.y = b.y ∧ a.x < b.x)

/-- `p` is an end point of the line -/
def IsEnd (l : Line2 K) (p : V2 K) : Prop := p = l.start ∨ p = l.end

/-- `p` is a point of the line -/
def IsOn (l : Line2 K) (p : V2 K) : Prop := OnSegment2 l.start l.end p

/-- `p` is a common point of the lines number `i` and `j` -/
def Common (L : List (Line2 K)) (i j : Nat) (p : V2 K) : Prop :=
  ∃ l m, L[i]? = some l ∧ L[j]? = some m ∧ IsOn l p ∧ IsOn m p

/-- `p` is an end point of a line, or a common point of two different lines -/
def Special (L : List (Line2 K)) (p : V2 K) : Prop :=
  (∃ l ∈ L, IsEnd l p) ∨ ∃ i j, i ≠ j ∧ Common L i j p

/-- general position -/
structure GeneralPosition (L : List (Line2 K)) : Prop where
  /-- no line is horizontal -/
  slanted : ∀ l ∈ L, l.start.y ≠ l.end.y
  /-- two lines have at most one common point -/
  once : ∀ i j p q, i ≠ j → Common L i j p → Common L i j q → p = q
  /-- a line does not begin or end inside another one -/
  noT : ∀ (i j : Nat) (l m : Line2 K) (p : V2 K), i ≠ j → L[i]? = some l → L[j]? = some m → IsOn m p → IsEnd l p → IsEnd m p
  /-- a common point of two lines has not the height of another common point or end point -/
  heights : ∀ i j p q, i ≠ j → Common L i j p → Special L q → p.y = q.y → p = q

/-- `p` is the end point of the line that the sweep line meets first -/
def IsFirstEnd (l : Line2 K) (p : V2 K) : Prop := IsEnd l p ∧ ∀ q, IsEnd l q → ¬ SweepBefore q p

/-- what the sweep line needs: as general position, but a line may *end* (in the order of the sweep) inside another one -/
structure SweepPosition (L : List (Line2 K)) : Prop where
  /-- no line is horizontal -/
  slanted : ∀ l ∈ L, l.start.y ≠ l.end.y
  /-- two lines have at most one common point -/
  once : ∀ i j p q, i ≠ j → Common L i j p → Common L i j q → p = q
  /-- a line does not begin inside another one -/
  noT : ∀ (i j : Nat) (l m : Line2 K) (p : V2 K), i ≠ j → L[i]? = some l → L[j]? = some m → IsOn m p → IsFirstEnd l p → IsEnd m p
  /-- a common point of two lines has not the height of another common point or end point -/
  heights : ∀ i j p q, i ≠ j → Common L i j p → Special L q → p.y = q.y → p = q

theorem GeneralPosition.sweep {L : List (Line2 K)} (h : GeneralPosition L) : SweepPosition L :=
  ⟨h.slanted, h.once, fun i j l m p hij hl hm ho he => h.noT i j l m p hij hl hm ho he.1, h.heights⟩

end Verif.Spec
