import Verif.Lemmas.InPlace
import Verif.Model.InPlaceTuple
/-!
# Lemmas for C74: tuples

(Generated text.)
-/
namespace Bytecodec

open Spec

theorem inPlace_tuple2 {σ0 α0 σ1 α1 : Type}
    {B0 : BufEncoder σ0 α0} {E0 : Encoder σ0 α0} {B1 : BufEncoder σ1 α1} {E1 : Encoder σ1 α1}
    (h0 : InPlace B0 E0) (h1 : InPlace B1 E1) :
    InPlace (tupleBufEncoder2 B0 B1) (tupleEncoder2 E0 E1) where
  idle s := by simp only [tupleBufEncoder2, tupleEncoder2, h0.idle, h1.idle]
  requiring s := by simp only [tupleBufEncoder2, tupleEncoder2, h0.requiring, h1.requiring]
  start s x := by simp only [tupleBufEncoder2, tupleEncoder2, h0.start, h1.start]
  encode s buf e := by
    simp only [tupleBufEncoder2, tupleEncoder2]
    rcases h0.first s.1 buf e with ⟨o0, t0, q0, p0, p0'⟩ | ⟨r0, r0', t0, b0, q0, p0, p0'⟩
    rotate_left
    · rw [p0, p0']; exact q0.wrap _
    rw [p0, p0']
    simp only
    rcases h1.next s.2 (q0) e with ⟨o1, t1, q1, p1, p1'⟩ | ⟨r1, r1', t1, b1, q1, p1, p1'⟩
    rotate_left
    · rw [p1, p1']; exact q1.wrap _
    rw [p1, p1']
    simp only
    exact .ok q1

theorem inPlace_tuple3 {σ0 α0 σ1 α1 σ2 α2 : Type}
    {B0 : BufEncoder σ0 α0} {E0 : Encoder σ0 α0} {B1 : BufEncoder σ1 α1} {E1 : Encoder σ1 α1} {B2 : BufEncoder σ2 α2} {E2 : Encoder σ2 α2}
    (h0 : InPlace B0 E0) (h1 : InPlace B1 E1) (h2 : InPlace B2 E2) :
    InPlace (tupleBufEncoder3 B0 B1 B2) (tupleEncoder3 E0 E1 E2) where
  idle s := by simp only [tupleBufEncoder3, tupleEncoder3, h0.idle, h1.idle, h2.idle]
  requiring s := by simp only [tupleBufEncoder3, tupleEncoder3, h0.requiring, h1.requiring, h2.requiring]
  start s x := by simp only [tupleBufEncoder3, tupleEncoder3, h0.start, h1.start, h2.start]
  encode s buf e := by
    simp only [tupleBufEncoder3, tupleEncoder3]
    rcases h0.first s.1 buf e with ⟨o0, t0, q0, p0, p0'⟩ | ⟨r0, r0', t0, b0, q0, p0, p0'⟩
    rotate_left
    · rw [p0, p0']; exact q0.wrap _
    rw [p0, p0']
    simp only
    rcases h1.next s.2.1 (q0) e with ⟨o1, t1, q1, p1, p1'⟩ | ⟨r1, r1', t1, b1, q1, p1, p1'⟩
    rotate_left
    · rw [p1, p1']; exact q1.wrap _
    rw [p1, p1']
    simp only
    rcases h2.next s.2.2 (q1) e with ⟨o2, t2, q2, p2, p2'⟩ | ⟨r2, r2', t2, b2, q2, p2, p2'⟩
    rotate_left
    · rw [p2, p2']; exact q2.wrap _
    rw [p2, p2']
    simp only
    exact .ok q2

theorem inPlace_tuple4 {σ0 α0 σ1 α1 σ2 α2 σ3 α3 : Type}
    {B0 : BufEncoder σ0 α0} {E0 : Encoder σ0 α0} {B1 : BufEncoder σ1 α1} {E1 : Encoder σ1 α1} {B2 : BufEncoder σ2 α2} {E2 : Encoder σ2 α2} {B3 : BufEncoder σ3 α3} {E3 : Encoder σ3 α3}
    (h0 : InPlace B0 E0) (h1 : InPlace B1 E1) (h2 : InPlace B2 E2) (h3 : InPlace B3 E3) :
    InPlace (tupleBufEncoder4 B0 B1 B2 B3) (tupleEncoder4 E0 E1 E2 E3) where
  idle s := by simp only [tupleBufEncoder4, tupleEncoder4, h0.idle, h1.idle, h2.idle, h3.idle]
  requiring s := by simp only [tupleBufEncoder4, tupleEncoder4, h0.requiring, h1.requiring, h2.requiring, h3.requiring]
  start s x := by simp only [tupleBufEncoder4, tupleEncoder4, h0.start, h1.start, h2.start, h3.start]
  encode s buf e := by
    simp only [tupleBufEncoder4, tupleEncoder4]
    rcases h0.first s.1 buf e with ⟨o0, t0, q0, p0, p0'⟩ | ⟨r0, r0', t0, b0, q0, p0, p0'⟩
    rotate_left
    · rw [p0, p0']; exact q0.wrap _
    rw [p0, p0']
    simp only
    rcases h1.next s.2.1 (q0) e with ⟨o1, t1, q1, p1, p1'⟩ | ⟨r1, r1', t1, b1, q1, p1, p1'⟩
    rotate_left
    · rw [p1, p1']; exact q1.wrap _
    rw [p1, p1']
    simp only
    rcases h2.next s.2.2.1 (q1) e with ⟨o2, t2, q2, p2, p2'⟩ | ⟨r2, r2', t2, b2, q2, p2, p2'⟩
    rotate_left
    · rw [p2, p2']; exact q2.wrap _
    rw [p2, p2']
    simp only
    rcases h3.next s.2.2.2 (q2) e with ⟨o3, t3, q3, p3, p3'⟩ | ⟨r3, r3', t3, b3, q3, p3, p3'⟩
    rotate_left
    · rw [p3, p3']; exact q3.wrap _
    rw [p3, p3']
    simp only
    exact .ok q3

theorem inPlace_tuple5 {σ0 α0 σ1 α1 σ2 α2 σ3 α3 σ4 α4 : Type}
    {B0 : BufEncoder σ0 α0} {E0 : Encoder σ0 α0} {B1 : BufEncoder σ1 α1} {E1 : Encoder σ1 α1} {B2 : BufEncoder σ2 α2} {E2 : Encoder σ2 α2} {B3 : BufEncoder σ3 α3} {E3 : Encoder σ3 α3} {B4 : BufEncoder σ4 α4} {E4 : Encoder σ4 α4}
    (h0 : InPlace B0 E0) (h1 : InPlace B1 E1) (h2 : InPlace B2 E2) (h3 : InPlace B3 E3) (h4 : InPlace B4 E4) :
    InPlace (tupleBufEncoder5 B0 B1 B2 B3 B4) (tupleEncoder5 E0 E1 E2 E3 E4) where
  idle s := by simp only [tupleBufEncoder5, tupleEncoder5, h0.idle, h1.idle, h2.idle, h3.idle, h4.idle]
  requiring s := by simp only [tupleBufEncoder5, tupleEncoder5, h0.requiring, h1.requiring, h2.requiring, h3.requiring, h4.requiring]
  start s x := by simp only [tupleBufEncoder5, tupleEncoder5, h0.start, h1.start, h2.start, h3.start, h4.start]
  encode s buf e := by
    simp only [tupleBufEncoder5, tupleEncoder5]
    rcases h0.first s.1 buf e with ⟨o0, t0, q0, p0, p0'⟩ | ⟨r0, r0', t0, b0, q0, p0, p0'⟩
    rotate_left
    · rw [p0, p0']; exact q0.wrap _
    rw [p0, p0']
    simp only
    rcases h1.next s.2.1 (q0) e with ⟨o1, t1, q1, p1, p1'⟩ | ⟨r1, r1', t1, b1, q1, p1, p1'⟩
    rotate_left
    · rw [p1, p1']; exact q1.wrap _
    rw [p1, p1']
    simp only
    rcases h2.next s.2.2.1 (q1) e with ⟨o2, t2, q2, p2, p2'⟩ | ⟨r2, r2', t2, b2, q2, p2, p2'⟩
    rotate_left
    · rw [p2, p2']; exact q2.wrap _
    rw [p2, p2']
    simp only
    rcases h3.next s.2.2.2.1 (q2) e with ⟨o3, t3, q3, p3, p3'⟩ | ⟨r3, r3', t3, b3, q3, p3, p3'⟩
    rotate_left
    · rw [p3, p3']; exact q3.wrap _
    rw [p3, p3']
    simp only
    rcases h4.next s.2.2.2.2 (q3) e with ⟨o4, t4, q4, p4, p4'⟩ | ⟨r4, r4', t4, b4, q4, p4, p4'⟩
    rotate_left
    · rw [p4, p4']; exact q4.wrap _
    rw [p4, p4']
    simp only
    exact .ok q4

theorem inPlace_tuple6 {σ0 α0 σ1 α1 σ2 α2 σ3 α3 σ4 α4 σ5 α5 : Type}
    {B0 : BufEncoder σ0 α0} {E0 : Encoder σ0 α0} {B1 : BufEncoder σ1 α1} {E1 : Encoder σ1 α1} {B2 : BufEncoder σ2 α2} {E2 : Encoder σ2 α2} {B3 : BufEncoder σ3 α3} {E3 : Encoder σ3 α3} {B4 : BufEncoder σ4 α4} {E4 : Encoder σ4 α4} {B5 : BufEncoder σ5 α5} {E5 : Encoder σ5 α5}
    (h0 : InPlace B0 E0) (h1 : InPlace B1 E1) (h2 : InPlace B2 E2) (h3 : InPlace B3 E3) (h4 : InPlace B4 E4) (h5 : InPlace B5 E5) :
    InPlace (tupleBufEncoder6 B0 B1 B2 B3 B4 B5) (tupleEncoder6 E0 E1 E2 E3 E4 E5) where
  idle s := by simp only [tupleBufEncoder6, tupleEncoder6, h0.idle, h1.idle, h2.idle, h3.idle, h4.idle, h5.idle]
  requiring s := by simp only [tupleBufEncoder6, tupleEncoder6, h0.requiring, h1.requiring, h2.requiring, h3.requiring, h4.requiring, h5.requiring]
  start s x := by simp only [tupleBufEncoder6, tupleEncoder6, h0.start, h1.start, h2.start, h3.start, h4.start, h5.start]
  encode s buf e := by
    simp only [tupleBufEncoder6, tupleEncoder6]
    rcases h0.first s.1 buf e with ⟨o0, t0, q0, p0, p0'⟩ | ⟨r0, r0', t0, b0, q0, p0, p0'⟩
    rotate_left
    · rw [p0, p0']; exact q0.wrap _
    rw [p0, p0']
    simp only
    rcases h1.next s.2.1 (q0) e with ⟨o1, t1, q1, p1, p1'⟩ | ⟨r1, r1', t1, b1, q1, p1, p1'⟩
    rotate_left
    · rw [p1, p1']; exact q1.wrap _
    rw [p1, p1']
    simp only
    rcases h2.next s.2.2.1 (q1) e with ⟨o2, t2, q2, p2, p2'⟩ | ⟨r2, r2', t2, b2, q2, p2, p2'⟩
    rotate_left
    · rw [p2, p2']; exact q2.wrap _
    rw [p2, p2']
    simp only
    rcases h3.next s.2.2.2.1 (q2) e with ⟨o3, t3, q3, p3, p3'⟩ | ⟨r3, r3', t3, b3, q3, p3, p3'⟩
    rotate_left
    · rw [p3, p3']; exact q3.wrap _
    rw [p3, p3']
    simp only
    rcases h4.next s.2.2.2.2.1 (q3) e with ⟨o4, t4, q4, p4, p4'⟩ | ⟨r4, r4', t4, b4, q4, p4, p4'⟩
    rotate_left
    · rw [p4, p4']; exact q4.wrap _
    rw [p4, p4']
    simp only
    rcases h5.next s.2.2.2.2.2 (q4) e with ⟨o5, t5, q5, p5, p5'⟩ | ⟨r5, r5', t5, b5, q5, p5, p5'⟩
    rotate_left
    · rw [p5, p5']; exact q5.wrap _
    rw [p5, p5']
    simp only
    exact .ok q5

theorem inPlace_tuple7 {σ0 α0 σ1 α1 σ2 α2 σ3 α3 σ4 α4 σ5 α5 σ6 α6 : Type}
    {B0 : BufEncoder σ0 α0} {E0 : Encoder σ0 α0} {B1 : BufEncoder σ1 α1} {E1 : Encoder σ1 α1} {B2 : BufEncoder σ2 α2} {E2 : Encoder σ2 α2} {B3 : BufEncoder σ3 α3} {E3 : Encoder σ3 α3} {B4 : BufEncoder σ4 α4} {E4 : Encoder σ4 α4} {B5 : BufEncoder σ5 α5} {E5 : Encoder σ5 α5} {B6 : BufEncoder σ6 α6} {E6 : Encoder σ6 α6}
    (h0 : InPlace B0 E0) (h1 : InPlace B1 E1) (h2 : InPlace B2 E2) (h3 : InPlace B3 E3) (h4 : InPlace B4 E4) (h5 : InPlace B5 E5) (h6 : InPlace B6 E6) :
    InPlace (tupleBufEncoder7 B0 B1 B2 B3 B4 B5 B6) (tupleEncoder7 E0 E1 E2 E3 E4 E5 E6) where
  idle s := by simp only [tupleBufEncoder7, tupleEncoder7, h0.idle, h1.idle, h2.idle, h3.idle, h4.idle, h5.idle, h6.idle]
  requiring s := by simp only [tupleBufEncoder7, tupleEncoder7, h0.requiring, h1.requiring, h2.requiring, h3.requiring, h4.requiring, h5.requiring, h6.requiring]
  start s x := by simp only [tupleBufEncoder7, tupleEncoder7, h0.start, h1.start, h2.start, h3.start, h4.start, h5.start, h6.start]
  encode s buf e := by
    simp only [tupleBufEncoder7, tupleEncoder7]
    rcases h0.first s.1 buf e with ⟨o0, t0, q0, p0, p0'⟩ | ⟨r0, r0', t0, b0, q0, p0, p0'⟩
    rotate_left
    · rw [p0, p0']; exact q0.wrap _
    rw [p0, p0']
    simp only
    rcases h1.next s.2.1 (q0) e with ⟨o1, t1, q1, p1, p1'⟩ | ⟨r1, r1', t1, b1, q1, p1, p1'⟩
    rotate_left
    · rw [p1, p1']; exact q1.wrap _
    rw [p1, p1']
    simp only
    rcases h2.next s.2.2.1 (q1) e with ⟨o2, t2, q2, p2, p2'⟩ | ⟨r2, r2', t2, b2, q2, p2, p2'⟩
    rotate_left
    · rw [p2, p2']; exact q2.wrap _
    rw [p2, p2']
    simp only
    rcases h3.next s.2.2.2.1 (q2) e with ⟨o3, t3, q3, p3, p3'⟩ | ⟨r3, r3', t3, b3, q3, p3, p3'⟩
    rotate_left
    · rw [p3, p3']; exact q3.wrap _
    rw [p3, p3']
    simp only
    rcases h4.next s.2.2.2.2.1 (q3) e with ⟨o4, t4, q4, p4, p4'⟩ | ⟨r4, r4', t4, b4, q4, p4, p4'⟩
    rotate_left
    · rw [p4, p4']; exact q4.wrap _
    rw [p4, p4']
    simp only
    rcases h5.next s.2.2.2.2.2.1 (q4) e with ⟨o5, t5, q5, p5, p5'⟩ | ⟨r5, r5', t5, b5, q5, p5, p5'⟩
    rotate_left
    · rw [p5, p5']; exact q5.wrap _
    rw [p5, p5']
    simp only
    rcases h6.next s.2.2.2.2.2.2 (q5) e with ⟨o6, t6, q6, p6, p6'⟩ | ⟨r6, r6', t6, b6, q6, p6, p6'⟩
    rotate_left
    · rw [p6, p6']; exact q6.wrap _
    rw [p6, p6']
    simp only
    exact .ok q6

theorem inPlace_tuple8 {σ0 α0 σ1 α1 σ2 α2 σ3 α3 σ4 α4 σ5 α5 σ6 α6 σ7 α7 : Type}
    {B0 : BufEncoder σ0 α0} {E0 : Encoder σ0 α0} {B1 : BufEncoder σ1 α1} {E1 : Encoder σ1 α1} {B2 : BufEncoder σ2 α2} {E2 : Encoder σ2 α2} {B3 : BufEncoder σ3 α3} {E3 : Encoder σ3 α3} {B4 : BufEncoder σ4 α4} {E4 : Encoder σ4 α4} {B5 : BufEncoder σ5 α5} {E5 : Encoder σ5 α5} {B6 : BufEncoder σ6 α6} {E6 : Encoder σ6 α6} {B7 : BufEncoder σ7 α7} {E7 : Encoder σ7 α7}
    (h0 : InPlace B0 E0) (h1 : InPlace B1 E1) (h2 : InPlace B2 E2) (h3 : InPlace B3 E3) (h4 : InPlace B4 E4) (h5 : InPlace B5 E5) (h6 : InPlace B6 E6) (h7 : InPlace B7 E7) :
    InPlace (tupleBufEncoder8 B0 B1 B2 B3 B4 B5 B6 B7) (tupleEncoder8 E0 E1 E2 E3 E4 E5 E6 E7) where
  idle s := by simp only [tupleBufEncoder8, tupleEncoder8, h0.idle, h1.idle, h2.idle, h3.idle, h4.idle, h5.idle, h6.idle, h7.idle]
  requiring s := by simp only [tupleBufEncoder8, tupleEncoder8, h0.requiring, h1.requiring, h2.requiring, h3.requiring, h4.requiring, h5.requiring, h6.requiring, h7.requiring]
  start s x := by simp only [tupleBufEncoder8, tupleEncoder8, h0.start, h1.start, h2.start, h3.start, h4.start, h5.start, h6.start, h7.start]
  encode s buf e := by
    simp only [tupleBufEncoder8, tupleEncoder8]
    rcases h0.first s.1 buf e with ⟨o0, t0, q0, p0, p0'⟩ | ⟨r0, r0', t0, b0, q0, p0, p0'⟩
    rotate_left
    · rw [p0, p0']; exact q0.wrap _
    rw [p0, p0']
    simp only
    rcases h1.next s.2.1 (q0) e with ⟨o1, t1, q1, p1, p1'⟩ | ⟨r1, r1', t1, b1, q1, p1, p1'⟩
    rotate_left
    · rw [p1, p1']; exact q1.wrap _
    rw [p1, p1']
    simp only
    rcases h2.next s.2.2.1 (q1) e with ⟨o2, t2, q2, p2, p2'⟩ | ⟨r2, r2', t2, b2, q2, p2, p2'⟩
    rotate_left
    · rw [p2, p2']; exact q2.wrap _
    rw [p2, p2']
    simp only
    rcases h3.next s.2.2.2.1 (q2) e with ⟨o3, t3, q3, p3, p3'⟩ | ⟨r3, r3', t3, b3, q3, p3, p3'⟩
    rotate_left
    · rw [p3, p3']; exact q3.wrap _
    rw [p3, p3']
    simp only
    rcases h4.next s.2.2.2.2.1 (q3) e with ⟨o4, t4, q4, p4, p4'⟩ | ⟨r4, r4', t4, b4, q4, p4, p4'⟩
    rotate_left
    · rw [p4, p4']; exact q4.wrap _
    rw [p4, p4']
    simp only
    rcases h5.next s.2.2.2.2.2.1 (q4) e with ⟨o5, t5, q5, p5, p5'⟩ | ⟨r5, r5', t5, b5, q5, p5, p5'⟩
    rotate_left
    · rw [p5, p5']; exact q5.wrap _
    rw [p5, p5']
    simp only
    rcases h6.next s.2.2.2.2.2.2.1 (q5) e with ⟨o6, t6, q6, p6, p6'⟩ | ⟨r6, r6', t6, b6, q6, p6, p6'⟩
    rotate_left
    · rw [p6, p6']; exact q6.wrap _
    rw [p6, p6']
    simp only
    rcases h7.next s.2.2.2.2.2.2.2 (q6) e with ⟨o7, t7, q7, p7, p7'⟩ | ⟨r7, r7', t7, b7, q7, p7, p7'⟩
    rotate_left
    · rw [p7, p7']; exact q7.wrap _
    rw [p7, p7']
    simp only
    exact .ok q7

end Bytecodec
