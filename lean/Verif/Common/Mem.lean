import Verif.Common.Outcome
import Verif.Common.Loop

/-!
# Arrays with a size

`Vec`, `Mat`: an Eigen vector/matrix or NumPy array. An access outside the bounds is undefined behaviour
(`ub`), as in a release build of Eigen.
-/
namespace Verif

structure Vec (α : Type) where
  size : Int
  val : Int → α

structure Mat (α : Type) where
  rows : Int
  cols : Int
  val : Int → Int → α

namespace Vec
variable {α : Type}

def get (v : Vec α) (i : Int) : Outcome α :=
  if 0 ≤ i ∧ i < v.size then .ok (v.val i) else .ub "vector index out of bounds"

def set (v : Vec α) (i : Int) (a : α) : Outcome (Vec α) :=
  if 0 ≤ i ∧ i < v.size then .ok ⟨v.size, upd v.val i a⟩ else .ub "vector index out of bounds"

/-- `VectorXd::Zero(n)`; a negative size is undefined behaviour -/
def zero [Zero α] (n : Int) : Outcome (Vec α) :=
  if 0 ≤ n then .ok ⟨n, fun _ => 0⟩ else .ub "negative size"

/-- equal contents -/
def Same (v w : Vec α) : Prop := v.size = w.size ∧ ∀ i, 0 ≤ i → i < v.size → v.val i = w.val i

def ofList [Inhabited α] (l : List α) : Vec α := ⟨l.length, fun i => l.getD i.toNat default⟩

theorem get_ok (v : Vec α) (i : Int) (h : 0 ≤ i) (h' : i < v.size) : v.get i = .ok (v.val i) := by
  simp [get, h, h']

theorem set_ok (v : Vec α) (i : Int) (a : α) (h : 0 ≤ i) (h' : i < v.size) :
    v.set i a = .ok ⟨v.size, upd v.val i a⟩ := by
  simp [set, h, h']

end Vec

namespace Mat
variable {α : Type}

def get (v : Mat α) (i j : Int) : Outcome α :=
  if (0 ≤ i ∧ i < v.rows) ∧ 0 ≤ j ∧ j < v.cols then .ok (v.val i j) else .ub "matrix index out of bounds"

def set (v : Mat α) (i j : Int) (a : α) : Outcome (Mat α) :=
  if (0 ≤ i ∧ i < v.rows) ∧ 0 ≤ j ∧ j < v.cols then
    .ok ⟨v.rows, v.cols, fun i' j' => if i' = i ∧ j' = j then a else v.val i' j'⟩
  else .ub "matrix index out of bounds"

def zero [Zero α] (r c : Int) : Outcome (Mat α) :=
  if 0 ≤ r ∧ 0 ≤ c then .ok ⟨r, c, fun _ _ => 0⟩ else .ub "negative size"

def Same (v w : Mat α) : Prop := v.rows = w.rows ∧ v.cols = w.cols ∧
  ∀ i j, 0 ≤ i → i < v.rows → 0 ≤ j → j < v.cols → v.val i j = w.val i j

theorem get_ok (v : Mat α) (i j : Int) (h : (0 ≤ i ∧ i < v.rows) ∧ 0 ≤ j ∧ j < v.cols) :
    v.get i j = .ok (v.val i j) := by
  simp [get, h]

theorem set_ok (v : Mat α) (i j : Int) (a : α) (h : (0 ≤ i ∧ i < v.rows) ∧ 0 ≤ j ∧ j < v.cols) :
    v.set i j a = .ok ⟨v.rows, v.cols, fun i' j' => if i' = i ∧ j' = j then a else v.val i' j'⟩ := by
  simp [set, h]

end Mat
end Verif
