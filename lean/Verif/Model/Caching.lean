import Verif.Model.Work
import Verif.Model.Bip32

/-! # The caches: `functools.lru_cache` as used in work.py, and `util.cachedproperty` -/

namespace Bitcoinx

/-- The caches of the two functions decorated with `@lru_cache()`, bitcoinx/work.py:33 and 75, as `(argument, result)`
with the one used last first.  Arguments are taken to be of type `int`, which `lru_cache` uses as the key itself; the
model is of one thread. -/
structure Caches where
  targets : List (Int × Nat)
  works : List (Int × Nat)

/-- `lru_cache`, bitcoinx/work.py:33 and 75: the result kept for an argument, and the cache with it moved to the front.
(Simplified: the part of the Python library used there, with the default `maxsize` of 128.) -/
def lruLookup (cache : List (Int × Nat)) (key : Int) : Option (Nat × List (Int × Nat)) :=
  match cache.find? (fun e => e.1 == key) with
  | none => none
  | some e => some (e.2, e :: cache.filter (fun e => e.1 != key))

/-- `lru_cache`, bitcoinx/work.py:33 and 75: a new result is put in front, and the one used least recently is dropped
if there are more than 128. -/
def lruStore (cache : List (Int × Nat)) (key : Int) (value : Nat) : List (Int × Nat) :=
  ((key, value) :: cache).take 128

namespace Caches

/-- The caches when the module has been imported, bitcoinx/work.py:33 and 75. -/
def empty : Caches := { targets := [], works := [] }

/-- `bits_to_target(bits)` through its cache, bitcoinx/work.py:33-52; an exception is not kept. -/
def bits_to_target (c : Caches) (bits : Int) : Res Nat × Caches :=
  match lruLookup c.targets bits with
  | some (value, targets) => (.ok value, { c with targets })
  | none =>
    match Bitcoinx.bits_to_target bits with
    | .error e => (.error e, c)
    | .ok value => (.ok value, { c with targets := lruStore c.targets bits value })

/-- `bits_to_work(bits)` through its cache, bitcoinx/work.py:75-77: the call of `bits_to_target` goes through the cache
of that function. -/
def bits_to_work (c : Caches) (bits : Int) : Res Nat × Caches :=
  match lruLookup c.works bits with
  | some (value, works) => (.ok value, { c with works })
  | none =>
    match c.bits_to_target bits with
    | (.error e, c) => (.error e, c)
    | (.ok target, c) =>
      let value := 2 ^ 256 / (target + 1)
      (.ok value, { c with works := lruStore c.works bits value })

end Caches

/-- The calls of the functions decorated with `@lru_cache()`, bitcoinx/work.py:33-52 and 75-77. -/
inductive CachedCall
  | target (bits : Int)
  | work (bits : Int)

/-- A call through the caches, bitcoinx/work.py:33-52 and 75-77. -/
def Caches.call (c : Caches) : CachedCall → Res Nat × Caches
  | .target bits => c.bits_to_target bits
  | .work bits => c.bits_to_work bits

/-- Calls one after the other, bitcoinx/work.py:33-52 and 75-77. -/
def Caches.calls (c : Caches) : List CachedCall → List (Res Nat) × Caches
  | [] => ([], c)
  | x :: xs =>
    let (r, c) := c.call x
    let (rs, c) := c.calls xs
    (r :: rs, c)

/-- An object of a class with a `cachedproperty` of function `f`, bitcoinx/util.py:43-54: what the value depends on, which
no method changes, and the attribute of the object which `setattr` makes. -/
structure CachedObject (κ α : Type) where
  self : κ
  value? : Option α

/-- The objects made so far, and (for the claims only) the objects `f` has been called with, the last one first. -/
structure CachedObjects (κ α : Type) where
  objects : List (CachedObject κ α)
  log : List Nat

/-- What may be done: make an object, read the property of an object, or of the class. -/
inductive CachedOp (κ : Type)
  | create (self : κ)
  | get (i : Nat)
  | getClass

/-- One operation, bitcoinx/util.py:45-54.  Reading: Python finds an attribute of the object before it asks `__get__`,
as the class has no `__set__`.  `obj or type_` is `obj`: objects of these classes are true, having neither `__bool__` nor
`__len__`.  On the class itself `f` is called with the class, where the methods it calls lack their `self`:
`TypeError`, and nothing is set.  (The result of `create` is `none`.) -/
def CachedObjects.step {κ α : Type} (f : κ → Res α) (w : CachedObjects κ α) :
    CachedOp κ → Option (Res α) × CachedObjects κ α
  | .create self => (none, { w with objects := w.objects ++ [{ self, value? := none }] })
  | .getClass => (some (.error .typeError), w)
  | .get i =>
    match w.objects[i]? with
    | none => (none, w)
    | some obj =>
      match obj.value? with
      | some value => (some (.ok value), w)
      | none =>
        let w := { w with log := i :: w.log }
        match f obj.self with
        | .error e => (some (.error e), w)
        | .ok value =>
          (some (.ok value), { w with objects := w.objects.set i { obj with value? := some value } })

/-- Operations one after the other, bitcoinx/util.py:45-54. -/
def CachedObjects.run {κ α : Type} (f : κ → Res α) (w : CachedObjects κ α) :
    List (CachedOp κ) → List (Option (Res α)) × CachedObjects κ α
  | [] => ([], w)
  | x :: xs =>
    let (r, w) := w.step f x
    let (rs, w) := w.run f xs
    (r :: rs, w)

/-- `private_key.public_key` of the private keys made by a program, bitcoinx/keys.py:142-145. -/
def publicKeys (L : Secp) (ops : List (CachedOp PrivateKey)) :
    List (Option (Res (PublicKey L))) × CachedObjects PrivateKey (PublicKey L) :=
  CachedObjects.run (fun k => k.public_key L) { objects := [], log := [] } ops

/-- `private_key.public_key` of the BIP32 private keys made by a program, bitcoinx/bip32.py:123-126. -/
def publicKeys32 (L : Secp) (ops : List (CachedOp BIP32PrivateKey)) :
    List (Option (Res (BIP32PublicKey L))) × CachedObjects BIP32PrivateKey (BIP32PublicKey L) :=
  CachedObjects.run (fun k => k.public_key L) { objects := [], log := [] } ops

end Bitcoinx
