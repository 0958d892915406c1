import Verif.Sae.Session
import Verif.Sae.Order
import Mathlib.FieldTheory.Finite.Basic

/-!
# Checkers that the kernel can run on 521-bit numbers

To apply the SAE theorems to P-256, P-384 and P-521 one has to prove that the
two numbers are prime, that the base point has order `q`, that the cubic has no
root and that the constants of the SWU map are admissible.  Each of these is
reduced here to the evaluation of a small program on natural numbers; the
program is proved correct, and the kernel evaluates it (its natural-number
arithmetic is fast).  `force` makes the kernel evaluate a number before going on.
-/

namespace Wolf.Sae

/-- `k n`, with `n` evaluated first. -/
noncomputable def force {α : Type} (n : Nat) (k : Nat → α) : α := Nat.rec (k 0) (fun m _ => k (m + 1)) n

theorem force_eq {α : Type} (n : Nat) (k : Nat → α) : force n k = k n := by
  cases n <;> rfl

/-! ## Modular powers -/

/-- `acc * b ^ e` modulo `m`, for `e < 2 ^ f`. -/
noncomputable def powAux (m f : Nat) : Nat → Nat → Nat → Nat :=
  Nat.rec (fun _ _ acc => acc)
    (fun _ ih b e acc => force (b * b % m) fun b' => force (e / 2) fun e' =>
      if e % 2 = 1 then force (acc * b % m) fun acc' => ih b' e' acc' else ih b' e' acc) f

theorem powAux_eq (m : Nat) : ∀ f b e acc, e < 2 ^ f →
    powAux m f b e acc % m = acc * b ^ e % m
  | 0, b, e, acc, h => by
    have : e = 0 := by simpa using h
    subst this
    simp [powAux]
  | f + 1, b, e, acc, h => by
    have hs : powAux m (f + 1) b e acc = if e % 2 = 1 then
        powAux m f (b * b % m) (e / 2) (acc * b % m) else powAux m f (b * b % m) (e / 2) acc := by
      simp only [powAux, force_eq]
    rw [hs]
    have h2 : e / 2 < 2 ^ f := by rw [Nat.pow_succ] at h; omega
    have hb : ∀ x k : Nat, x * (b * b % m) ^ k % m = x * (b * b) ^ k % m := by
      intro x k
      rw [Nat.mul_mod, Nat.pow_mod, Nat.mod_mod, ← Nat.pow_mod, ← Nat.mul_mod]
    have he : b ^ e = (b * b) ^ (e / 2) * b ^ (e % 2) := by
      conv => lhs; rw [← Nat.div_add_mod e 2, pow_add, pow_mul]
      rw [pow_two]
    split
    · rename_i ho
      rw [powAux_eq m f _ _ _ h2, hb, he, ho, pow_one, Nat.mul_mod, Nat.mod_mod, ← Nat.mul_mod]
      congr 1; ring
    · rename_i ho
      have ho : e % 2 = 0 := by omega
      rw [powAux_eq m f _ _ _ h2, hb, he, ho, pow_zero, mul_one]

/-- `b ^ e` modulo `m`. -/
noncomputable def powm (b e m : Nat) : Nat := powAux m 528 b e 1 % m

theorem powm_eq {b e m : Nat} (h : e < 2 ^ 528) : powm b e m = b ^ e % m := by
  rw [powm, powAux_eq m 528 b e 1 h, one_mul]

/-! ## Primes (Pocklington) -/

/-- `m` divides `r - 1` for every prime divisor `r` of `N`. -/
def DvdPred (N m : Nat) : Prop := ∀ r : Nat, r.Prime → r ∣ N → m ∣ r - 1

theorem dvdPred_one {N : Nat} : DvdPred N 1 := fun _ _ _ => Nat.one_dvd _

theorem dvdPred_mul {N m k : Nat} (h1 : DvdPred N m) (h2 : DvdPred N k) (hc : Nat.gcd m k = 1) :
    DvdPred N (m * k) := fun r hr hd =>
  Nat.Coprime.mul_dvd_of_dvd_of_dvd hc (h1 r hr hd) (h2 r hr hd)

/-- One prime factor of `N - 1` with a witness. -/
theorem dvdPred_prime {N q a k : Nat} (hq : q.Prime) (hN : N < 2 ^ 528) (hNq : N - 1 = q * k)
    (h1 : powm (powm a k N) q N = 1 % N) (h2 : Nat.gcd (powm a k N + (N - 1)) N = 1) (h0 : 0 < N) :
    DvdPred N q := by
  intro r hr hd
  haveI : Fact r.Prime := ⟨hr⟩
  have hk : k < 2 ^ 528 := by
    have := Nat.le_mul_of_pos_left k hq.pos
    omega
  have hql : q < 2 ^ 528 := by
    rcases Nat.eq_zero_or_pos k with c0 | c0
    · subst c0
      have : N = 1 := by omega
      subst this
      have := Nat.le_of_dvd (by omega) hd
      have := hr.two_le
      omega
    · have := Nat.le_mul_of_pos_right q c0
      omega
  have hmod : ∀ x : Nat, ((x % N : Nat) : ZMod r) = (x : ZMod r) := by
    intro x
    rw [ZMod.natCast_eq_natCast_iff']
    exact Nat.mod_mod_of_dvd x hd
  have hu : ((powm a k N : Nat) : ZMod r) ^ q = 1 := by
    have := congrArg (Nat.cast (R := ZMod r)) h1
    rw [powm_eq hql, hmod, hmod] at this
    push_cast at this
    exact this
  have hne : ((powm a k N : Nat) : ZMod r) ≠ 1 := by
    intro hc
    have h3 : ((powm a k N + (N - 1) : Nat) : ZMod r) = 0 := by
      have hN0 : ((N : Nat) : ZMod r) = 0 := (ZMod.natCast_eq_zero_iff _ _).2 hd
      rw [show powm a k N + (N - 1) = powm a k N + (N - 1) from rfl]
      have : ((powm a k N + (N - 1) + 1 : Nat) : ZMod r) = 1 := by
        rw [show powm a k N + (N - 1) + 1 = powm a k N + N by omega, Nat.cast_add, hN0, hc, add_zero]
      rw [Nat.cast_add, Nat.cast_one] at this
      exact add_eq_right.1 this
    have h4 := (ZMod.natCast_eq_zero_iff _ _).1 h3
    have h5 := Nat.dvd_gcd h4 hd
    rw [h2] at h5
    exact hr.one_lt.ne' (Nat.dvd_one.1 h5)
  have hord : orderOf ((powm a k N : Nat) : ZMod r) = q := by
    haveI : Fact q.Prime := ⟨hq⟩
    exact orderOf_eq_prime hu hne
  have hnz : ((powm a k N : Nat) : ZMod r) ≠ 0 := by
    intro c
    rw [c, zero_pow hq.ne_zero] at hu
    exact zero_ne_one hu
  rw [← hord]
  exact ZMod.orderOf_dvd_card_sub_one hnz

theorem pocklington {N F : Nat} (h1 : 1 < N) (hF : DvdPred N F) (hb : N < (F + 1) * (F + 1)) :
    N.Prime := by
  by_contra hnp
  have hm := Nat.minFac_prime (n := N) (by omega)
  have hd := hF _ hm (Nat.minFac_dvd N)
  have hle : F ≤ N.minFac - 1 := Nat.le_of_dvd (by have := hm.two_le; omega) hd
  have hsq := Nat.minFac_sq_le_self (by omega) hnp
  have hm2 := hm.two_le
  have := Nat.mul_le_mul (show F + 1 ≤ N.minFac by omega) (show F + 1 ≤ N.minFac by omega)
  rw [pow_two] at hsq
  omega

end Wolf.Sae
