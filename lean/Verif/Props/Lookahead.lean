import Verif.Lemmas.Lookahead
import Verif.Props.Exact
import Verif.Props.Chunking
/-!
# C96: nothing behind an item influences it

A decoder whose items end by themselves gets by with the bytes of the item: it needs to see neither the bytes behind it
nor the end of the stream, and is not impressed by either. So whoever controls the rest of the stream cannot change an
item that has been sent, and no item is the beginning of another one.
-/
namespace Bytecodec.Props

open Spec

variable {σ α : Type}

/-- C96: the bytes of the item suffice. If a buffer `c` gives an item and `n` bytes of it are taken, then these bytes
alone, with no word about the end of the stream, give the same item and leave the same decoder. -/
theorem C96_suffices_partial {w : Bool} {D : Decoder σ α} {s s' : σ} (hD : Exactable w true D s) {c : Bytes} {e : Eos}
    {n : Nat} {x : α} (h : feed D s [(c, e)] = some (n, x, s')) :
    feed D s [(c.take n, Eos.new false)] = some (n, x, s') := by
  have hs := steady w true D
  have hm := hs.fresh (exactable_fresh hD)
  obtain ⟨t, hi⟩ := feed_one.1 h
  have hb := hs.bound hm hi
  have hi' := hi
  rw [← List.take_append_drop n c] at hi'
  rcases (good_splits true D).split (hs.good hm) hi' (.inl rfl) rfl with k | ⟨_, _, s1, k1, _, k2⟩
  · exact feed_one.2 ⟨t, k⟩
  · obtain ⟨m1, m2⟩ := hs.item_step hm hi' (.inl rfl) rfl k1
    rcases hs.item_need m1 k2 with ⟨k, h1, h2⟩ | ⟨h1, _⟩
    · rw [List.length_take, Nat.min_eq_left hb, Nat.sub_self] at h2
      rw [Nat.le_zero.1 h2] at h1
      exact absurd h1 m2
    · cases h1

/-- C96: what comes behind does not matter. With any bytes behind the `n` bytes of the item, and any word about the end of
the stream, the result is the same. Missing: `max_bytes` (`C08_maxBytes_fails`), `collect`, which looks at the end of the
stream (but see `C96_anything_behind_collect_partial`), and decoders that are not `Exactable`, such as `collectn` over
items without bytes (`C96_collectN_fails`). -/
theorem C96_anything_behind_partial {w p q : Bool} {D : Decoder σ α} {s s' : σ} (hD : Exactable w true D s)
    (hS : Streamable Plain p q D s) {c : Bytes} {e : Eos} {n : Nat} {x : α}
    (h : feed D s [(c, e)] = some (n, x, s')) (more : Bytes) (e' : Eos) (he : EosSane e' (c.take n ++ more).length) :
    feed D s [(c.take n ++ more, e')] = some (n, x, s') :=
  C08_join_partial hS (.cons _ _ (.inl rfl) (.last more e')) he (feed_first (C96_suffices_partial hD h) _)

/-- C96 with `collect` inside frames: the same for at least one byte behind the item. -/
theorem C96_anything_behind_collect_partial {w p q : Bool} {D : Decoder σ α} {s s' : σ} (hD : Exactable w true D s)
    (hS : Streamable WithCollect p q D s) {c : Bytes} {e : Eos} {n : Nat} {x : α}
    (h : feed D s [(c, e)] = some (n, x, s')) (more : Bytes) (hne : more ≠ []) (e' : Eos)
    (he : EosSane e' (c.take n ++ more).length) :
    feed D s [(c.take n ++ more, e')] = some (n, x, s') :=
  C08_join_collect_partial hS (.cons _ _ (.inl rfl) (.last more e')) (by rintro c h; cases h; exact hne) he
    (feed_first (C96_suffices_partial hD h) _)

/-- C96: no item is the beginning of another one. If two byte strings are each taken completely as one item, and the
first is a prefix of the second, then they are the same string and the same item. -/
theorem C96_prefix_free_partial {w p q : Bool} {D : Decoder σ α} {s s1 s2 : σ} (hD : Exactable w true D s)
    (hS : Streamable Plain p q D s) {c1 c2 : Bytes} {e1 e2 : Eos} {x1 x2 : α}
    (h1 : feed D s [(c1, e1)] = some (c1.length, x1, s1)) (h2 : feed D s [(c2, e2)] = some (c2.length, x2, s2))
    (he : EosSane e2 c2.length) (hp : c1 <+: c2) : c1 = c2 ∧ x1 = x2 := by
  obtain ⟨more, rfl⟩ := hp
  have h3 := C96_anything_behind_partial hD hS h1 more e2 (by rwa [List.take_length])
  rw [List.take_length, h2] at h3
  simp only [Option.some.injEq, Prod.mk.injEq, List.length_append] at h3
  obtain ⟨h4, h5, _⟩ := h3
  have : more = [] := List.length_eq_zero_iff.1 (by omega)
  subst this
  exact ⟨by simp, h5.symm⟩

/-- Bytes behind their number. -/
def exCounted : Decoder (CopyableState × Option (LengthState RemainingState)) Bytes :=
  andThenDecoder u8Decoder (lengthDecoder remainingBytesDecoder) (fun n => .new .new n.toNat)

/-- The hypotheses are met, and two more messages behind the first change nothing. -/
example : feed exCounted (fixInit 1, none) [([2, 7, 8] ++ [1, 9, 5], Eos.new false)] =
    some (3, [7, 8], (⟨[2], 0⟩, none)) :=
  C96_anything_behind_partial (w := true) (p := true) (q := false)
    (.andThen _ (.number true true _ 1 (by simp)) fun _ => .length false true _ (by simp) (.remaining false))
    (.andThen _ (.number _ _ _ _) fun x => .length _ _ (by have := x.toNat_lt; omega) (.remaining false))
    (c := [2, 7, 8]) (n := 3) (e := Eos.new false) (feed_one.2 ⟨_, rfl, rfl⟩) [1, 9, 5] _ .newFalse

/-- C96 is false for `collectn` over items that take no bytes: the items are complete only when a byte that does not
belong to them can be seen. -/
theorem C96_collectN_fails :
    (feed (collectNDecoder nullDecoder) (.new () 2) [([7], Eos.new false)]).map (fun r => (r.1, r.2.1)) =
      some (0, [(), ()]) ∧
    (feed (collectNDecoder nullDecoder) (.new () 2) [([], Eos.new false)]).isNone = true := by
  refine ⟨?_, ?_⟩ <;> decide +kernel

end Bytecodec.Props
