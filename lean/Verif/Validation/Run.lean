import Verif.Model.Buf
import Verif.Model.DecCombinator
import Verif.Model.EncCombinator
import Verif.Lemmas.DecodeExact
/-!
# Running the model

`decodeExact`, `encodeAll` and `collectLoop` are least fixed points, which the kernel does not evaluate.
The versions below count their rounds, so they can be evaluated; where they give an answer, it is the
answer of the model. Used only to replay the tests of the repository (`Validation/Tests.lean`).
-/
namespace Bytecodec.Validation
open Bytecodec

variable {σ α ρ ω : Type}

/-- `decodeExact` with at most `n` rounds. -/
def decodeExactN (D : Decoder σ α) (R : Reader ρ) : Nat → σ → ρ → Option (Res α × σ × ρ)
  | 0, _, _ => none
  | n + 1, s, r =>
    match (if readSize (D.requiring s) ≠ 0 then R.read r (readSize (D.requiring s)) else (.data [], r)) with
    | (.error k, r') => some (.err (ErrorKind.ofIo k), s, r')
    | (.data bs, r') =>
      if 1024 < bs.length then some (.panic, s, r')
      else
        match D.decode s bs (Eos.new (readSize (D.requiring s) ≠ 0 && bs.isEmpty)) with
        | (.ok consumed, s') =>
          if consumed ≠ bs.length then some (.err .inconsistentState, s', r')
          else if D.isIdle s' then some ((D.finish s').1, (D.finish s').2, r')
          else decodeExactN D R n s' r'
        | (.err k, s') => some (.err k, s', r')
        | (.panic, s') => some (.panic, s', r')
        | (.capacity, s') => some (.capacity, s', r')
        | (.diverge, s') => some (.diverge, s', r')

theorem decodeExact_of (D : Decoder σ α) (R : Reader ρ) (n : Nat) {s : σ} {r : ρ} {x : Res α × σ × ρ}
    (h : decodeExactN D R n s r = some x) : decodeExact D R s r = some x := by
  induction n generalizing s r with
  | zero => cases h
  | succ n ih =>
    rw [decodeExact_eq]
    simp only [decodeExactN] at h
    split at h
    · rename_i h1; simp only [h1]; exact h
    · rename_i h1
      simp only [h1]
      split at h
      · rename_i h2; rw [if_pos h2]; exact h
      · rename_i h2
        rw [if_neg h2]
        split at h
        · rename_i h3
          simp only [h3]
          split at h
          · rename_i h4; rw [if_pos h4]; exact h
          · rename_i h4
            rw [if_neg h4]
            split at h
            · rename_i h5; rw [if_pos h5]; exact h
            · rename_i h5; rw [if_neg h5]; exact ih h
        all_goals (rename_i h3; simp only [h3]; exact h)

/-- `encodeAll` with at most `n` rounds. -/
def encodeAllN (E : Encoder σ α) : Nat → σ → Bytes → Option (Res Unit × σ × Bytes)
  | 0, _, _ => none
  | n + 1, s, w =>
    if E.isIdle s then some (.ok (), s, w)
    else
      match E.encode s 1024 (Eos.new false) with
      | (.ok bs, s') =>
        if 1024 < bs.length then some (.panic, s', w)
        else if !E.isIdle s' && bs.isEmpty then some (.err .other, s', w ++ bs)
        else encodeAllN E n s' (w ++ bs)
      | (.err k, s') => some (.err k, s', w)
      | (.panic, s') => some (.panic, s', w)
      | (.capacity, s') => some (.capacity, s', w)
      | (.diverge, s') => some (.diverge, s', w)

theorem writeAll_vec (w bs : Bytes) : writeAll vecWriter w bs = (.ok (), w ++ bs) := by
  cases bs with
  | nil => rw [writeAll]; simp
  | cons b bs =>
    rw [writeAll]
    simp only [vecWriter, List.isEmpty_cons, Bool.false_eq_true, if_false, List.length_cons, Nat.lt_irrefl]
    rw [if_neg (by omega), writeAll]
    simp

theorem encodeAll_of (E : Encoder σ α) (n : Nat) {s : σ} {w : Bytes} {x : Res Unit × σ × Bytes}
    (h : encodeAllN E n s w = some x) : encodeAll E vecWriter s w = some x := by
  induction n generalizing s w with
  | zero => cases h
  | succ n ih =>
    rw [encodeAll]
    simp only [encodeAllN] at h
    simp only [writeAll_vec]
    split at h
    · rename_i h1; rw [if_pos h1]; exact h
    · rename_i h1
      rw [if_neg h1]
      split at h
      · rename_i h2
        simp only [h2]
        split at h
        · rename_i h3; rw [if_pos h3]; exact h
        · rename_i h3
          rw [if_neg h3]
          split at h
          · rename_i h4; rw [if_pos h4]; exact h
          · rename_i h4; rw [if_neg h4]; exact ih h
      all_goals (rename_i h2; simp only [h2]; exact h)

/-- `collectLoop` with at most `n` rounds. -/
def collectLoopN (D : Decoder σ α) (buf : Bytes) (e : Eos) : Nat → Nat → σ → List α → Option (LoopExit σ α)
  | 0, _, _, _ => none
  | n + 1, offset, s, items =>
    if offset < buf.length then
      match tryDecode D s offset buf e with
      | .ret r s' => some (.ret r s' items)
      | .next offset' s' =>
        match D.finish s' with
        | (.ok x, s'') => collectLoopN D buf e n offset' s'' (items ++ [x])
        | (.err k, s'') => some (.ret (.err k) s'' items)
        | (.panic, s'') => some (.ret .panic s'' items)
        | (.capacity, s'') => some (.ret .capacity s'' items)
        | (.diverge, s'') => some (.ret .diverge s'' items)
    else some (.done offset s items)

theorem collectLoop_of (D : Decoder σ α) (buf : Bytes) (e : Eos) (n : Nat) {offset : Nat} {s : σ} {items : List α}
    {x : LoopExit σ α} (h : collectLoopN D buf e n offset s items = some x) :
    collectLoop D buf e offset s items = some x := by
  induction n generalizing offset s items with
  | zero => cases h
  | succ n ih =>
    rw [collectLoop]
    simp only [collectLoopN] at h
    split at h
    · rename_i h1
      rw [if_pos h1]
      split at h
      · rename_i h2; simp only [h2]; exact h
      · rename_i h2
        simp only [h2]
        split at h
        · rename_i h3; simp only [h3]; exact ih h
        all_goals (rename_i h3; simp only [h3]; exact h)
    · rename_i h1; rw [if_neg h1]; exact h

/-- `repeatLoop` with at most `n` rounds. -/
def repeatLoopN (E : Encoder σ α) (cap : Nat) (e : Eos) : Nat → Bytes → σ → Option (List α) →
    Option (Res Bytes × RepeatState σ α)
  | 0, _, _, _ => none
  | n + 1, out, s, items =>
    match startNext E s (items.getD []) with
    | .exhausted s' => some (.ok out, ⟨s', none⟩)
    | .failed r s' rest => some (r.failAs, ⟨s', items.map fun _ => rest⟩)
    | .busy s' rest =>
      if cap < out.length then some (.panic, ⟨s', items.map fun _ => rest⟩)
      else
        match E.encode s' (cap - out.length) e with
        | (.ok bs, s'') =>
          if bs.length = 0 then some (.ok out, ⟨s'', items.map fun _ => rest⟩)
          else repeatLoopN E cap e n (out ++ bs) s'' (items.map fun _ => rest)
        | (.err k, s'') => some (.err k, ⟨s'', items.map fun _ => rest⟩)
        | (.panic, s'') => some (.panic, ⟨s'', items.map fun _ => rest⟩)
        | (.capacity, s'') => some (.capacity, ⟨s'', items.map fun _ => rest⟩)
        | (.diverge, s'') => some (.diverge, ⟨s'', items.map fun _ => rest⟩)

theorem repeatLoop_of (E : Encoder σ α) (cap : Nat) (e : Eos) (n : Nat) {out : Bytes} {s : σ} {items : Option (List α)}
    {x : Res Bytes × RepeatState σ α} (h : repeatLoopN E cap e n out s items = some x) :
    repeatLoop E cap e out s items = x := by
  induction n generalizing out s items with
  | zero => cases h
  | succ n ih =>
    rw [repeatLoop]
    simp only [repeatLoopN] at h
    split at h
    · rename_i h1; simp only [h1]; exact Option.some.inj h
    · rename_i h1; simp only [h1]; exact Option.some.inj h
    · rename_i h1
      simp only [h1]
      split at h
      · rename_i h2; rw [if_pos h2]; exact Option.some.inj h
      · rename_i h2
        rw [if_neg h2]
        split at h
        · rename_i h3
          simp only [h3]
          split at h
          · rename_i h4; rw [if_pos h4]; exact Option.some.inj h
          · rename_i h4; rw [if_neg h4]; exact ih h
        all_goals (rename_i h3; simp only [h3]; exact Option.some.inj h)

end Bytecodec.Validation
