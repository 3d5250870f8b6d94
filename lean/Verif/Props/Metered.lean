import Verif.Lemmas.Metered
import Verif.Lemmas.Productive
import Verif.Model.Fixnum
/-!
# C97: the work for an item is linear in its bytes and in the number of calls
-/
namespace Bytecodec.Props

open Spec

variable {σ τ α : Type}

/-- For every decoder composed from innermost decoders, every way to cut its input: if the caller's loop gets an item of `n`
bytes from some number of chunks, the counting version gets the same item from the same bytes, and reports at most
`a` calls of innermost decoders per call (one for each chunk, one for the item), and `b` more per byte.

So there is no format and no way to cut it for which the work grows faster than the number of bytes and chunks: nothing is
scanned again, and there is no price for being called with small pieces other than that of the calls. -/
theorem C97_item {a b : Nat} {D : Decoder σ α} {s : σ} {M : Decoder τ (α × Nat)} {t : τ} (h : Metered a b D s M t)
    (chunks : List (Bytes × Eos)) (hs : ∀ c ∈ chunks, EosSane c.2 c.1.length) (n : Nat) (x : α) (s' : σ)
    (hf : feed D s chunks = some (n, x, s')) :
    ∃ c t', feed M t chunks = some (n, (x, c), t') ∧ c ≤ a * (chunks.length + 1) + b * n := by
  have hM := meter_accounted a b D M
  have key : ∀ (chunks : List (Bytes × Eos)), (∀ c ∈ chunks, EosSane c.2 c.1.length) → ∀ s t φ n x s',
      Accounted a b D M s t φ → feed D s chunks = some (n, x, s') →
      ∃ c t', feed M t chunks = some (n, (x, c), t') ∧ c ≤ φ + a * (chunks.length + 1) + b * n := by
    intro chunks
    induction chunks with
    | nil =>
      intro _ s t φ n x s' hr hf
      unfold feed at hf ⊢
      rw [← hM.idle hr]
      split at hf
      · rename_i hi
        rw [if_pos hi]
        split at hf
        · rename_i y u hfin
          cases hf
          obtain ⟨y', t', h1, h2, φ', h3, h4⟩ := hM.finish hr _ _ hfin
          obtain ⟨z, c⟩ := y'
          cases h2
          rw [h1]
          refine ⟨c, t', rfl, ?_⟩
          simp only [List.length_nil, Nat.zero_add, Nat.mul_one]
          dsimp only at h3
          omega
        · cases hf
      · cases hf
    | cons ch rest ih =>
      intro hs s t φ n x s' hr hf
      unfold feed at hf ⊢
      rw [← hM.idle hr]
      split at hf
      · rename_i hi
        rw [if_pos hi]
        split at hf
        · rename_i y u hfin
          cases hf
          obtain ⟨y', t', h1, h2, φ', h3, h4⟩ := hM.finish hr _ _ hfin
          obtain ⟨z, c⟩ := y'
          cases h2
          rw [h1]
          refine ⟨c, t', rfl, ?_⟩
          simp only [Nat.mul_add, Nat.mul_one]
          dsimp only at h3
          omega
        · cases hf
      · rename_i hi
        rw [if_neg hi]
        obtain ⟨bs, e⟩ := ch
        dsimp only at hf ⊢
        cases hd : D.decode s bs e with
        | mk r s1 =>
          rw [hd] at hf
          cases r with
          | ok m =>
            dsimp only at hf
            obtain ⟨m', t1, h1, h2, h3⟩ := hM.decode hr bs e (hs _ (List.mem_cons_self ..)) m s1 hd
            subst h2
            rw [h1]
            dsimp only
            rw [← hM.idle h3]
            split at hf
            · rename_i hc
              rw [if_pos hc]
              cases hf' : feed D s1 rest with
              | none => rw [hf'] at hf; cases hf
              | some r =>
                obtain ⟨n1, x1, s2⟩ := r
                rw [hf'] at hf
                cases hf
                obtain ⟨c, t', h4, h5⟩ := ih (fun c hc => hs c (List.mem_cons_of_mem _ hc)) s1 t1 _ _ _ _ h3 hf'
                rw [h4]
                refine ⟨c, t', rfl, ?_⟩
                simp only [List.length_cons, Nat.mul_add, Nat.mul_one] at h5 ⊢
                omega
            · cases hf
          | _ => cases hf
  obtain ⟨c, t', h1, h2⟩ := key chunks hs s t 0 n x s' (metered_accounted h) hf
  exact ⟨c, t', h1, by omega⟩

/-- The same over a whole session of calls that succeed, in whatever order they are made: what is handed out in total is at
most `a` per call and `b` per byte. -/
theorem C97_session {a b : Nat} {D : Decoder σ α} {s : σ} {M : Decoder τ (α × Nat)} {t : τ} (h : Metered a b D s M t)
    (calls : List Call) (hs : ∀ c ∈ calls, c.sane)
    (hok : ∀ o ∈ observe D s calls, match o.answer with
      | .decode r => r.isOk = true
      | .finish r => r.isOk = true) :
    (observe M t calls).map (Seen.map id (mapItem Prod.fst)) = observe D s calls ∧
    countSeen (observe M t calls) ≤ a * calls.length + b * bytesSeen (observe D s calls) := by
  have hM := meter_accounted a b D M
  have key : ∀ (calls : List Call), (∀ c ∈ calls, c.sane) → ∀ s t φ, Accounted a b D M s t φ →
      (∀ o ∈ observe D s calls, match o.answer with
        | .decode r => r.isOk = true
        | .finish r => r.isOk = true) →
      (observe M t calls).map (Seen.map id (mapItem Prod.fst)) = observe D s calls ∧
      countSeen (observe M t calls) ≤ φ + a * calls.length + b * bytesSeen (observe D s calls) := by
    intro calls
    induction calls with
    | nil => intro _ s t φ _ _; exact ⟨rfl, Nat.zero_le _⟩
    | cons c calls ih =>
      intro hs s t φ hr hok
      have hs' := fun c hc => hs c (List.mem_cons_of_mem _ hc)
      have hc := hs c (List.mem_cons_self ..)
      have hok0 := hok _ (List.mem_cons_self ..)
      have hok' := fun o ho => hok o (List.mem_cons_of_mem _ ho)
      cases c with
      | decode bs e =>
        simp only [observe, callState, callAnswer] at hok0 hok' ⊢
        cases hd : D.decode s bs e with
        | mk r s1 =>
          rw [hd] at hok0 hok'
          cases r with
          | ok m =>
            obtain ⟨m', t1, h1, h2, h3⟩ := hM.decode hr bs e hc m s1 hd
            subst h2
            rw [h1]
            obtain ⟨h4, h5⟩ := ih hs' s1 t1 _ h3 hok'
            simp only [List.map_cons, h4, Seen.map, id, ← hM.idle h3, ← hM.req h3, countSeen, bytesSeen, List.length_cons,
              Nat.mul_add, Nat.mul_one, true_and]
            omega
          | _ => cases hok0
      | finish =>
        simp only [observe, callState, callAnswer] at hok0 hok' ⊢
        cases hd : D.finish s with
        | mk r s1 =>
          rw [hd] at hok0 hok'
          cases r with
          | ok x =>
            obtain ⟨y, t1, h1, h2, φ', h3, h4⟩ := hM.finish hr x s1 hd
            subst h2
            rw [h1]
            obtain ⟨h5, h6⟩ := ih hs' s1 t1 _ h4 hok'
            simp only [List.map_cons, h5, Seen.map, mapItem, ← hM.idle h4, ← hM.req h4, countSeen, bytesSeen,
              List.length_cons, Nat.mul_add, Nat.mul_one, true_and]
            omega
          | _ => cases hok0
  obtain ⟨h1, h2⟩ := key calls hs s t 0 (metered_accounted h) hok
  exact ⟨h1, by omega⟩

/-- `u8.and_then(|n| u8.collectn(n))`: a list with its length in front. -/
def countedList : Decoder (CopyableState × Option (CollectNState CopyableState UInt8)) (List UInt8) :=
  andThenDecoder u8Decoder (collectNDecoder u8Decoder) fun n => CollectNState.new (fixInit 1) n.toNat

/-- The same, counting. -/
def countedListMetered : Decoder ((CopyableState × Nat) × Option (Nat × CollectNState (CopyableState × Nat) (UInt8 × Nat)))
    (List UInt8 × Nat) :=
  andThenDecoder (meteredLeaf u8Decoder)
    (capturedDecoder fun c => mapDecoder (mapDecoder (collectNDecoder (meteredLeaf u8Decoder))
      fun l => (l.map Prod.fst, countSum l)) fun p => (p.1, c + p.2))
    fun p => (p.2, CollectNState.new (fixInit 1, 0) p.1.toNat)

/-- Two innermost decoders: two calls of them per call, and two per byte, however long the list is. -/
theorem C97_counted_list : Metered 2 2 countedList (fixInit 1, none) countedListMetered ((fixInit 1, 0), none) :=
  Metered.andThen (a0 := 1) (a1 := 1) (b := 2) (fun n : UInt8 => CollectNState.new (fixInit 1) n.toNat)
    (fun n : UInt8 => CollectNState.new (fixInit 1, 0) n.toNat)
    (.weaken (Nat.le_refl _) (Nat.zero_le _) (.leaf u8Decoder (fixInit 1)))
    fun n => .collectN (D := u8Decoder) (a := 1) (b := 0) _ (productive_number _ (by decide)) (.leaf _ _)

/-- The list `[7, 8]` in three pieces: three bytes with six calls of innermost decoders (the bound says 14). -/
example : ((feed countedList (fixInit 1, none) [([2], Eos.new false), ([7], Eos.new false), ([8, 9], Eos.new false)]).map
      fun r => (r.1, r.2.1)) = some (3, [7, 8]) ∧
    ((feed countedListMetered ((fixInit 1, 0), none)
      [([2], Eos.new false), ([7], Eos.new false), ([8, 9], Eos.new false)]).map fun r => (r.1, r.2.1)) =
      some (3, [7, 8], 6) := by
  decide +kernel

/-- The session: the same calls one by one, all of which succeed. -/
example : (∀ c ∈ [Call.decode [2] (Eos.new false), .decode [7, 8] (Eos.new false), .finish], c.sane) ∧
    ((observe countedList (fixInit 1, none) [.decode [2] (Eos.new false), .decode [7, 8] (Eos.new false), .finish]).all
      fun o => match o.answer with
        | .decode r => r.isOk
        | .finish r => r.isOk) = true := by
  refine ⟨?_, by decide +kernel⟩
  intro c hc
  simp only [List.mem_cons, List.not_mem_nil, or_false] at hc
  rcases hc with rfl | rfl | rfl
  · exact EosSane.newFalse
  · exact EosSane.newFalse
  · trivial

end Bytecodec.Props
