/-!
# Parts of the C++ standard library
-/
namespace KM

/-- Insert before the first element which is not less or equal (`le x y`) -/
def insertBy (le : α → α → Bool) (x : α) : List α → List α
  | [] => [x]
  | y :: ys => if le x y then x :: y :: ys else y :: insertBy le x ys

/-- `std::sort` (whose result is only specified up to the order of equal elements), as insertion
sort, with `le x y` the negation of the comparison of `y` and `x`. -/
def sortBy (le : α → α → Bool) : List α → List α
  | [] => []
  | x :: xs => insertBy le x (sortBy le xs)

/-- `std::lower_bound` on the index range `[first, first + len)` with predicate `p`
(the comparison with the searched value). -/
def lowerBound (p : Nat → Bool) (first len : Nat) : Nat :=
  if h : len = 0 then first
  else
    if p (first + len / 2) then lowerBound p (first + len / 2 + 1) (len - len / 2 - 1)
    else lowerBound p first (len / 2)
termination_by len
decreasing_by all_goals omega

/-- `std::string_view::operator<`, `true` when the first is less -/
def strLt : List Char → List Char → Bool
  | _, [] => false
  | [], _ :: _ => true
  | a :: as, b :: bs => decide (a < b) || (a == b && strLt as bs)

/-- The members of a finite range -/
theorem mem_insertBy {le : α → α → Bool} {x a : α} {l : List α} :
    a ∈ insertBy le x l ↔ a = x ∨ a ∈ l := by
  induction l with
  | nil => simp [insertBy]
  | cons y ys ih =>
    simp only [insertBy]
    split
    · simp
    · simp only [List.mem_cons, ih]
      constructor
      · rintro (h | h | h) <;> simp [h]
      · rintro (h | h | h) <;> simp [h]

/-- Sorting does not change the members -/
theorem mem_sortBy {le : α → α → Bool} {a : α} {l : List α} : a ∈ sortBy le l ↔ a ∈ l := by
  induction l with
  | nil => simp [sortBy]
  | cons x xs ih => simp [sortBy, mem_insertBy, ih]

end KM
