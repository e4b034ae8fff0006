import Verif.Model.Chain
import Verif.Spec.Storage

/-! # Specification of a collection of headers

The histories of a `Headers` object, and the assumptions under which the properties hold. -/

namespace Bitcoinx.Spec

/-- No two of the headers under consideration have the same hash. -/
def Inj (H : Hashes) (S : Bytes → Prop) : Prop :=
  ∀ a b, S a → S b → header_hash H a = header_hash H b → a = b

/-- The assumptions on the hash function and the checkpoint.  `S` is the set of headers under
consideration: no two of them collide, none of them is the predecessor of the checkpoint.  The
all-zero header (which storage uses to mark an empty slot) does not hash to zero. -/
structure Env (H : Hashes) (cp : CheckPoint) (S : Bytes → Prop) : Prop where
  inj : Inj H S
  noroot : ∀ x, S x → header_hash H x ≠ header_prev_hash cp.raw_header
  cp_length : cp.raw_header.length = 80
  cp_ne : cp.raw_header ≠ zeros 80
  cp_mem : S cp.raw_header
  cp_height : cp.height + 1 < 2 ^ 32
  nonzero : 0 < hash_to_value (header_hash H (zeros 80))

/-- One more header fits: fewer than 65536 chains (their indices are 16-bit numbers), and the number
of headers still fits in 32 bits. -/
def Room (s : Headers) : Prop :=
  s.chains.length < 65536 ∧ ∀ n, s.len = .ok n → n + 1 < 2 ^ 32

/-- A file that can have been written by this library or another: the layout, the checkpoint, and from
there on the headers `R`, which are different from each other and from the checkpoint, and in `S`. -/
structure Holds (cp : CheckPoint) (S : Bytes → Prop) (f : Bytes) (R : List Bytes) : Prop where
  layout : ∃ n cap, HeadersFile f n cap ∧ cp.height < n ∧ R = storedFrom f (cp.height + 1) (n - (cp.height + 1))
  checkpoint : storedAt f cp.height = cp.raw_header
  headers : ∀ x ∈ R, x ≠ cp.raw_header ∧ S x
  distinct : R.Nodup

/-- The states of a `Headers` object with the headers accepted so far (the checkpoint first), over
all histories: made for a new file, for an existing one that does not hold the checkpoint, or for any
file with the layout of a headers file that holds the checkpoint and from there on different headers
of `S`, wherever it comes from; then any sequence of `connect` (of headers in `S`, while there is room), `set_one` and closing and
reopening the file.  `set_one` must not replace the checkpoint's header. -/
inductive Reachable (H : Hashes) (coin : Coin) (cp : CheckPoint) (S : Bytes → Prop) :
    Headers → List Bytes → Prop
  | start {file f' : Option Bytes} {s : Headers} : file ≠ some [] →
      (∀ f, file = some f → ¬ Matches f cp.raw_header cp.height) →
      Headers.from_file H coin file cp = (f', .ok s) → Reachable H coin cp S s [cp.raw_header]
  | opened {f : Bytes} {f' : Option Bytes} {s : Headers} {R : List Bytes} : Holds cp S f R →
      Headers.from_file H coin (some f) cp = (f', .ok s) → Reachable H coin cp S s (cp.raw_header :: R)
  | accept {s s' : Headers} {A : List Bytes} {raw : Bytes} {r : Header × Nat} :
      Reachable H coin cp S s A → S raw → Room s → s.connect raw = (s', .ok r) →
      Reachable H coin cp S s' (A ++ [raw])
  | reject {s s' : Headers} {A : List Bytes} {raw : Bytes} {e : Err} :
      Reachable H coin cp S s A → S raw → Room s → s.connect raw = (s', .error e) →
      Reachable H coin cp S s' A
  | set_one {s s' : Headers} {A : List Bytes} {height : Int} {raw : Bytes} {r : Res Unit} :
      Reachable H coin cp S s A → (height = cp.height → raw = cp.raw_header) →
      s.set_one height raw = (s', r) → Reachable H coin cp S s' A
  | reopen {s s' : Headers} {A : List Bytes} {f' : Option Bytes} :
      Reachable H coin cp S s A →
      Headers.from_file H coin (some s.storage.file) cp = (f', .ok s') → Reachable H coin cp S s' A

end Bitcoinx.Spec
