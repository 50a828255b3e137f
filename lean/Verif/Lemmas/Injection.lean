import Verif.Spec.Injection
import Verif.Lemmas.Prelude
import Verif.Lemmas.Tactics

namespace Fbpic

variable {K : Type} [Field K] [LinearOrder K] [IsStrictOrderedRing K] [FloorRing K]

theorem plasmaMesh_add (pl : InjPlasma K) (d : K) (N M : ℕ) (a : K) :
    Spec.plasmaMesh pl d (N + M) a = Spec.plasmaMesh pl d N a ++ Spec.plasmaMesh pl d M (a + (N : K) * d) := by
  unfold Spec.plasmaMesh Spec.layerZ Spec.ringR Spec.weight
  rw [List.range_add, List.flatMap_append, List.flatMap_map]
  congr 1
  congr 1
  funext iz
  have e : a + d * (((N + iz : ℕ) : K) + 1 / 2) = a + (N : K) * d + d * ((iz : K) + 1 / 2) := by
    push_cast; ring
  rw [e]

theorem plasmaMesh_eq_nil (pl : InjPlasma K) (d : K) (N : ℕ) (a : K)
    (h : N * pl.Npr * pl.Nptheta = 0) : Spec.plasmaMesh pl d N a = [] := by
  unfold Spec.plasmaMesh Spec.layerZ Spec.ringR Spec.weight
  rcases Nat.mul_eq_zero.mp h with h | h
  · rcases Nat.mul_eq_zero.mp h with h | h
    · simp [h]
    · simp [h]
  · simp [h]

theorem generate_eq (pl : InjPlasma K) (d : K) (N : ℕ) (a b : K) (hb : b = a + (N : K) * d) :
    generateEvenlySpaced (N : ℤ) a b pl.Npr pl.rmin pl.rmax pl.Nptheta pl.n pl.twoPi pl.dens
      = (Spec.plasmaMesh pl d N a).filter fun p => decide (0 < p.w) := by
  subst hb
  unfold generateEvenlySpaced
  by_cases h : N * pl.Npr * pl.Nptheta = 0
  · have h' : ¬ (0 : ℤ) < (N : ℤ) * pl.Npr * pl.Nptheta := by
      have : ((N * pl.Npr * pl.Nptheta : ℕ) : ℤ) = 0 := by rw [h]; rfl
      push_cast at this; omega
    rw [if_neg h', plasmaMesh_eq_nil pl d N a h]; rfl
  · have h' : (0 : ℤ) < (N : ℤ) * pl.Npr * pl.Nptheta := by
      have : (0 : ℤ) < ((N * pl.Npr * pl.Nptheta : ℕ) : ℤ) := by exact_mod_cast Nat.pos_of_ne_zero h
      push_cast at this; exact this
    rw [if_pos h']
    have hN : (N : K) ≠ 0 := by
      intro e
      have : N = 0 := by exact_mod_cast e
      simp [this] at h
    have hd : (a + (N : K) * d - a) / ((N : ℤ) : K) = d := by
      push_cast; field_simp; ring
    simp only [hd, Int.toNat_natCast]
    rfl

/-- `generate_evenly_spaced` with a non-positive number of layers creates nothing. -/
theorem generate_nonpos (pl : InjPlasma K) (n : ℤ) (hn : n ≤ 0) (a b : K) (dens : K → K → ℕ → K) :
    generateEvenlySpaced n a b pl.Npr pl.rmin pl.rmax pl.Nptheta pl.n pl.twoPi dens = [] := by
  unfold generateEvenlySpaced
  rw [if_neg]
  have h1 : n * (pl.Npr : ℤ) ≤ 0 := mul_nonpos_of_nonpos_of_nonneg hn (by positivity)
  have h2 : n * (pl.Npr : ℤ) * (pl.Nptheta : ℤ) ≤ 0 :=
    mul_nonpos_of_nonpos_of_nonneg h1 (by positivity)
  omega

/-- Translate a particle along z. -/
def NewPtcl.translate (s : K) (p : NewPtcl K) : NewPtcl K := { p with z := p.z - s }

theorem plasmaMesh_translate (pl : InjPlasma K) (d : K) (N : ℕ) (a s : K) :
    (Spec.plasmaMesh { pl with dens := fun z r i => pl.dens (z - s) r i } d N a).map (NewPtcl.translate s)
      = Spec.plasmaMesh pl d N (a - s) := by
  unfold Spec.plasmaMesh Spec.layerZ Spec.ringR Spec.weight
  simp only [List.map_flatMap, List.map_map]
  congr 1; funext iz; congr 1; funext ir; congr 1; funext it
  have e : a + d * ((iz : K) + 1 / 2) - s = a - s + d * ((iz : K) + 1 / 2) := by ring
  simp only [Function.comp, NewPtcl.translate, e]

theorem generateParticles_eq (dzp vEnd : K) (pl : InjPlasma K) (time : K) (p : InjPos K) (N : ℕ)
    (hN : p.nzInject = N) :
    ((generateParticles dzp vEnd pl time p).1).map (NewPtcl.translate (vEnd * time))
      = (Spec.plasmaMesh pl dzp N (p.zEnd - (N : K) * dzp - vEnd * time)).filter
          fun q => decide (0 < q.w) := by
  unfold generateParticles
  have := generate_eq { pl with dens := fun z r i => pl.dens (z - vEnd * time) r i } dzp N
    (p.zEnd - (N : K) * dzp) p.zEnd (by ring)
  simp only [hN, Int.cast_natCast]
  simp only at this
  rw [this, ← plasmaMesh_translate pl dzp N _ (vEnd * time), List.filter_map]
  rfl

end Fbpic
