import Verif.Model.Stat

/-!
# Model of the functions of `uncertainties/stat.hpp` which take iterators

The output iterator is a position in an array; writing out of bounds is undefined behaviour (`none`).
-/

namespace Unc
namespace Stat
variable {R : Type*}

/-- `*matrix = a; ++matrix;` (uncertainties/stat.hpp:89-90) -/
def put {α : Type*} (s : List α × ℕ) (a : α) : Option (List α × ℕ) := (setAt s.1 s.2 a).map fun v => (v, s.2 + 1)

/-- `internal::outer(begin, end, matrix, op)` (uncertainties/stat.hpp:84-94): the input and the output are different arrays,
`buf` is the output array and `pos` the position of `matrix`.  Returns the array and the position returned. -/
def outerIt {α β : Type*} (x : List α) (op : α → α → β) (buf : List β) (pos : ℕ) : Option (List β × ℕ) :=
  x.foldlM (fun s a => x.foldlM (fun s b => put s (op a b)) s) (buf, pos)

/-- `cov_matrix(begin, end, matrix)` (uncertainties/stat.hpp:115-121) -/
def covMatrixIt [Zero R] [Add R] [Mul R] (x : List (UReal R)) (buf : List R) (pos : ℕ) : Option (List R × ℕ) := outerIt x UReal.cov buf pos

/-- `corr_matrix(begin, end, matrix)` (uncertainties/stat.hpp:148-154) -/
def corrMatrixIt [Zero R] [Add R] [Mul R] [Div R] [CCmp R] [CSqrt R] (x : List (UReal R)) (buf : List R) (pos : ℕ) : Option (List R × ℕ) :=
  outerIt x UReal.corr buf pos

/-- `internal::outer(begin, end, matrix, op)` (uncertainties/stat.hpp:84-94) when the input and the output are in the same array `mem`, the
input from `b` to `e` and the output from `pos`: the elements are read again for each product. -/
def outerMem {α : Type*} (b e : ℕ) (op : α → α → α) (mem : List α) (pos : ℕ) : Option (List α × ℕ) :=
  (List.range' b (e - b)).foldlM (fun s i => (List.range' b (e - b)).foldlM (fun s j =>
    s.1[i]?.bind fun x => s.1[j]?.bind fun y => put s (op x y)) s) (mem, pos)

/-- The inner loop of `internal::outer` (uncertainties/stat.hpp:88-91) when the iterators read a stream, as `std::istream_iterator`
does: an iterator keeps the value it has read, and `++` reads the next value of the stream, which all the copies of the iterator share.
`y` is the value of `j`, `rest` what has still to be read; returns the values written and what is left in the stream. -/
def rowStream {α β : Type*} (op : α → α → β) (x : α) (y : α) : List α → List β × List α
  | [] => ([op x y], [])
  | z :: rest => let (w, r) := rowStream op x z rest; (op x y :: w, r)

/-- The outer loop of `internal::outer` (uncertainties/stat.hpp:87-92) with the same iterators: `first` is the value kept by `begin`, `i` that of
`i`.  `fuel` limits the number of rows, which cannot be more than the values in the stream. -/
def rowsStream {α β : Type*} (op : α → α → β) (first : α) : ℕ → α → List α → List β
  | 0, _, _ => []
  | fuel + 1, i, rest =>
    match rowStream op i first rest with
    | (w, []) => w
    | (w, z :: r) => w ++ rowsStream op first fuel z r

/-- `internal::outer(begin, end, matrix, op)` (uncertainties/stat.hpp:84-94) reading from a stream: the values written. -/
def outerStream {α β : Type*} (op : α → α → β) : List α → List β
  | [] => []
  | a :: rest => rowsStream op a (rest.length + 1) a rest

end Stat
end Unc
