import Verif.Model.Gen

/-!
# Model of the program `latticegen` (fplll/latticegen.cpp)

Simplifications: `int` does not overflow; the functions of the C library are parameters; the matrices are those of `Model/Gen.lean`.
-/

namespace Fplll
namespace LatticeGen

open Gen

/-- what the program reads from outside: conversions of the C library, random numbers, `stdin` -/
structure Env where
  /-- `atoi` -/
  atoi : String → ℤ
  /-- `Z_NR<mpz_t>::set_str`; `none`: it returns false -/
  setStr : String → Option ℤ
  /-- `(int)pow(2 * d - i, atof(s))` -/
  powBits : String → ℕ → ℕ → ℕ
  /-- `mpz_nextprime` -/
  nextPrime : ℕ → ℕ
  /-- the numbers read from `stdin` for method `T`, as `set_f` stores them -/
  input : ℕ → ℤ
  /-- random numbers, see `Model/Gen.lean`; `rndQ`: the one drawn in `gen_q` -/
  rnd : ℕ → ℕ → ℕ
  rndQ : ℕ
  sgn : ℕ → ℕ → Bool

/-- what can happen -/
inductive Out
  | help
  | version
  /-- `fatal_error`: message and exit code 1 -/
  | fatal
  /-- `FPLLL_ABORT`, or an exception that is not caught (`new` with a negative size) -/
  | abort
  /-- access outside of an array -/
  | ub
  /-- GMP is called with arguments that it does not support: a negative number of bits, modulus zero -/
  | gmp
  /-- the matrix that is printed; negative dimensions print an empty matrix -/
  | ok (r c : ℤ) (m : Mat ℤ)

/-- a newly allocated `ZZ_mat`: the entries are zero -/
def fresh : Mat ℤ := fun _ _ => 0

/-- `gen_q(bits, q)`, matrix.h:284-291, for `bits ≥ 1` -/
def genQ (E : Env) (bits : ℤ) : ℕ := E.rndQ % 2 ^ (bits.toNat - 1) + 2 ^ (bits.toNat - 1)

/-- the result of a generator of `Model/Gen.lean` on a matrix with `r` rows and `c` columns -/
def fin (r c : ℤ) (x : Option (Mat ℤ)) (bad : Out) : Out :=
  match x with
  | some m => .ok r c m
  | none => bad

/-- method `r`, latticegen.cpp:97-105 -/
def genR (E : Env) (d b : ℤ) : Out :=
  if d ≤ 0 then .ok d (d + 1) fresh
  else if b < 0 then .gmp
  else fin d (d + 1) (intrel d.toNat (d.toNat + 1) b.toNat E.rnd fresh) .abort

/-- method `s`, latticegen.cpp:106-115: without rows, `matrix[0][0] = 1` writes outside of the array -/
def genS (E : Env) (d b b2 : ℤ) : Out :=
  if d + 1 ≤ 0 then .ub
  else if b < 0 ∨ b2 < 0 then .gmp
  else fin (d + 1) (d + 1) (simdioph (d + 1).toNat (d + 1).toNat b.toNat b2.toNat E.rnd fresh) .ub

/-- method `u`, latticegen.cpp:116-124 -/
def genU (E : Env) (d b : ℤ) : Out :=
  if d ≤ 0 then .ok d d fresh
  else if b < 0 then .gmp
  else fin d d (uniform d.toNat d.toNat b.toNat E.rnd fresh) .abort

/-- `q` for the methods `n`, `N` and `q`: `c` is the last parameter, `s` the one before; latticegen.cpp:131-155, :164-188, :198-230.  `none`: `fatal_error`. -/
def readQ (E : Env) (prime : Bool) (c : Option Char) (s : String) : Option ℕ :=
  if c = some 'b' then if E.atoi s ≤ 0 then none else some (genQ E (E.atoi s))
  else if c = some 'q' then
    match E.setStr s with
    | none => none
    | some q => if q ≤ 0 then none else some q.toNat
  else if c = some 'p' ∧ prime = true then if E.atoi s ≤ 0 then none else some (E.nextPrime (genQ E (E.atoi s)))
  else none

/-- methods `n` and `N`, latticegen.cpp:125-190: `new Z_NR<ZT>[d]` throws for negative `d`, and `h[0] = 0` writes outside of the array for `d = 0` -/
def genN (E : Env) (second : Bool) (d : ℤ) (q : ℕ) : Out :=
  if d < 0 then .abort
  else if d = 0 then .ub
  else fin (2 * d) (2 * d) ((if second then ntrulike2 else ntrulike) (2 * d.toNat) (2 * d.toNat) q E.rnd fresh) .abort

/-- method `q`, latticegen.cpp:191-232, and `gen_qary`, matrix.cpp:407-434, with negative dimensions: the loops `i < d - k` leave the matrix for negative `k` -/
def genQary (E : Env) (d k : ℤ) (q : ℕ) : Out :=
  if k > d then .abort
  else if k < 0 then if d - k ≤ 0 then .ok d d fresh else .ub
  else fin d d (qary d.toNat d.toNat k.toNat q E.rnd fresh) .abort

/-- method `t`, latticegen.cpp:233-241; `randm(0)` divides by zero -/
def genT (E : Env) (d : ℤ) (s : String) : Out :=
  if d ≤ 0 then .ok d d fresh
  else fin d d (trg d.toNat d.toNat (E.powBits s d.toNat) E.rnd E.sgn fresh) .gmp

/-- method `T`, latticegen.cpp:242-257 -/
def genT2 (E : Env) (d : ℤ) : Out :=
  if d < 0 then .abort
  else if (List.range d.toNat).any fun i => E.input i < 0 then .gmp
  else fin d d (trg2 d.toNat d.toNat E.input E.rnd E.sgn fresh) .abort

/-- `argv[i][0]`; `none` is the terminating zero of an empty string -/
def head (s : String) : Option Char := s.toList.head?

/-- from the method on, latticegen.cpp:86-266.  Further arguments are ignored. -/
def method (E : Env) : List String → Out
  | g :: sd :: a =>
    let d := E.atoi sd
    if head g = some 'r' then
      match a with
      | s :: _ => genR E d (E.atoi s)
      | _ => .fatal
    else if head g = some 's' then
      match a with
      | s :: s2 :: _ => genS E d (E.atoi s) (E.atoi s2)
      | _ => .fatal
    else if head g = some 'u' then
      match a with
      | s :: _ => genU E d (E.atoi s)
      | _ => .fatal
    else if head g = some 'n' ∨ head g = some 'N' then
      match a with
      | s :: c :: _ =>
        match readQ E false (head c) s with
        | none => .fatal
        | some q => genN E (decide (head g = some 'N')) d q
      | _ => .fatal
    else if head g = some 'q' then
      match a with
      | sk :: s :: c :: _ =>
        match readQ E true (head c) s with
        | none => .fatal
        | some q => genQary E d (E.atoi sk) q
      | _ => .fatal
    else if head g = some 't' then
      match a with
      | s :: _ => genT E d s
      | _ => .fatal
    else if head g = some 'T' then genT2 E d
    else .fatal
  | _ => .fatal

/-- `main`, latticegen.cpp:56-84, with the arguments after the name of the program -/
def main (E : Env) : List String → Out
  | [] => .help
  | a :: rest =>
    if a = "--help" then .help
    else if a = "--version" then .version
    else if a = "-randseed" then
      match rest with
      | [] => .fatal
      | _ :: rest => method E rest
    else method E (a :: rest)

end LatticeGen
end Fplll
