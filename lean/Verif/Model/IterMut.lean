import Verif.Model.StatMap
/-!
# What the caller of `iter_mut` does with the iterator  (src/stat_map.rs:256-279)

`StatMap.iterMut` runs one function on every value.  The method returns an iterator, and what happens next is up to
the caller: they may look at the qualifiers, stop early, keep several of the references and write through them in any
order and any number of times, and panic half-way.
-/
namespace BSQ
variable {E : Env} {Q : Type}

/-- What a caller does with the iterator of `iter_mut` (stat_map.rs:271-279); the returned type is opaque, so only the
methods of `Iterator` can be called, and those not called `next` are made from it.  `V` is the value type of the stat
and `ρ` what the caller computes.  The references handed out live as long as the borrow of the map, so they can be
collected; the caller alone writes through them, so reading through one later shows nothing they do not know. -/
inductive IterProg (Q V ρ : Type) where
  /-- done; the iterator and all references are dropped -/
  | ret (a : ρ)
  /-- the caller panics -/
  | fail (e : Err)
  /-- `Iterator::next` -/
  | next (k : Option (Qualifier Q × V) → IterProg Q V ρ)
  /-- write through the `i`-th reference handed out so far; writing through one not handed out yet is not possible and
  does nothing here -/
  | write (i : Nat) (v : V) (k : IterProg Q V ρ)

/-- The caller at work (stat_map.rs:271-279): `slice::IterMut` over `inner[fst..snd]` stands at index `pos`; each
`next` reinterprets the buffer at `pos` as the stat's value type (stat_map.rs:278, `Buffer::as_mut`), a write puts a
value into the buffer of an earlier index.  The vector is returned with the outcome, as it is there after a panic too. -/
def IterProg.exec {ρ : Type} (s : StatInst E) (fst snd : Nat) :
    IterProg Q s.Val ρ → (pos : Nat) → StatMap E Q → StatMap E Q × Res ρ
  | .ret a, _, m => (m, .ok a)
  | .fail e, _, m => (m, .error e)
  | .next k, pos, m =>
    if pos < snd then
      match m[pos]? with
      | none => (m, .error .ub)
      | some e =>
        match e.buf.read s.ty with
        | .error err => (m, .error err)
        | .ok v => (k (some (e.qual, v))).exec s fst snd (pos + 1) m
    else (k none).exec s fst snd pos m
  | .write i v k, pos, m =>
    k.exec s fst snd pos
      (if fst + i < pos then List.modify m (fst + i) (fun e => { e with buf := .val s.ty v }) else m)

/-- `StatMap::iter_mut` and what the caller does with it (stat_map.rs:256-260, 271-279): `slice_mut` panics when its
bounds are crossed, before anything is handed out. -/
def StatMap.iterMutProg [Ord Q] (A : Addr E) {ρ : Type} (m : StatMap E Q) (s : StatInst E)
    (p : IterProg Q s.Val ρ) : StatMap E Q × Res ρ :=
  let r := Vec.range A m s
  if r.2 < r.1 ∨ m.length < r.2 then (m, .error .panic) else p.exec s r.1 r.2 r.1 m

end BSQ
