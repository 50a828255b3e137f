import Verif.Model.PicGpu
import Verif.Lemmas.Pic
import Verif.Props.Transform

/-! # The transforms on the GPU are those of the CPU -/

namespace Fbpic.Pic.Gpu

open Transform ExternalField Step

variable (c : Cfg)

theorem Dev.Launch.covers {d : Dev} (h : d.Launch c) : Spec.Covers c.Nz c.Nr d.threads := by
  obtain ⟨TPBx, TPBy, hx, hy, hp⟩ := h
  obtain ⟨h1, h2⟩ := (C55_threads c.Nz c.Nr TPBx TPBy hx hy).2
  exact ⟨hp.nodup_iff.2 h1, fun i j hi hj => hp.mem_iff.2 (h2 i j hi hj)⟩

theorem dht_gpu {d : Dev} (h : d.Launch c) (m : ℕ) (mat : ℕ → ℕ → ℝ) (src dst : ℕ) (mem : Mem) :
    (transOn c d m).dht mat src dst mem = (c.trans m).dht mat src dst mem := by
  have hc := h.covers c
  funext b iz ir
  by_cases hb : b = dst
  · subst hb
    by_cases hi : iz < c.Nz ∧ ir < c.Nr
    · rw [show (transOn c d m).dht mat src b mem b iz ir = Spec.hankel c.Nr mat (mem src) iz ir from
        (dht_apply c.Nz c.Nr ⟨true, d.threads, d.dhtIn, d.dhtOut⟩ hc mat src b mem).1 _ _ hi.1 hi.2]
      exact ((dht_apply c.Nz c.Nr ⟨false, loop2d c.Nz c.Nr, fun _ _ => 0, fun _ _ => 0⟩
        (covers_loop2d _ _) mat src b mem).1 _ _ hi.1 hi.2).symm
    · unfold Trans.dht Transform.dht
      simp only [if_true]
      change rToC c.Nz c.Nr d.threads _ (mem b) iz ir = rToC c.Nz c.Nr (loop2d c.Nz c.Nr) _ (mem b) iz ir
      rw [rToC_apply _ _ _ hc, rToC_apply _ _ _ (covers_loop2d _ _), if_neg hi, if_neg hi]
  · have h1 : (transOn c d m).dht mat src dst mem b = mem b :=
      (dht_apply c.Nz c.Nr ⟨true, d.threads, d.dhtIn, d.dhtOut⟩ hc mat src dst mem).2 b hb
    have h2 : (c.trans m).dht mat src dst mem b = mem b :=
      (dht_apply c.Nz c.Nr ⟨false, loop2d c.Nz c.Nr, fun _ _ => 0, fun _ _ => 0⟩
        (covers_loop2d _ _) mat src dst mem).2 b hb
    rw [h1, h2]

theorem copy1dTo2d_outside (Nz Nr : ℕ) (threads : List (ℕ × ℕ)) (hc : Spec.Covers Nz Nr threads) (a : ℕ → ℂ)
    (out : ℕ → ℕ → ℂ) (i j : ℕ) (h : ¬(i < Nz ∧ j < Nr)) :
    copy1dTo2d Nz Nr threads a out i j = out i j := by
  unfold copy1dTo2d
  rw [local_fold Nz Nr _ (fun i j _ => a (i + Nz * j)) ?_ _ hc.1, if_neg (fun hh => h hh.2)]
  intro w th i j
  by_cases h1 : th.1 < Nz ∧ th.2 < Nr
  · simp only [if_pos h1]
    by_cases h2 : i = th.1 ∧ j = th.2
    · obtain ⟨rfl, rfl⟩ := h2
      simp [h1]
    · rw [if_neg h2, if_neg (fun hc => h2 ⟨hc.1, hc.2.1⟩)]
  · rw [if_neg h1, if_neg]
    rintro ⟨rfl, rfl, h2⟩
    exact h1 h2

theorem rtToPm_gpu {d : Dev} (h : d.Launch c) (r t p q : ℕ) (mem : Mem) :
    rtToPm c.Nz c.Nr d.threads r t p q mem = rtToPm c.Nz c.Nr (loop2d c.Nz c.Nr) r t p q mem := by
  funext b i j
  rw [rtToPm_apply _ _ _ (h.covers c), rtToPm_apply _ _ _ (covers_loop2d _ _)]

theorem pmToRt_gpu {d : Dev} (h : d.Launch c) (r t p q : ℕ) (mem : Mem) :
    pmToRt c.Nz c.Nr d.threads r t p q mem = pmToRt c.Nz c.Nr (loop2d c.Nz c.Nr) r t p q mem := by
  funext b i j
  rw [pmToRt_apply _ _ _ (h.covers c), pmToRt_apply _ _ _ (covers_loop2d _ _)]

section
variable [NeZero c.Nz]

theorem fft_gpu {d : Dev} (h : d.Launch c) (m : ℕ) (inv : Bool) (src dst : ℕ) (mem : Mem) :
    (transOn c d m).fft inv src dst mem = (c.trans m).fft inv src dst mem := by
  have hc := h.covers c
  have ha := fft_apply c.Nz c.Nr true inv d.threads hc d.fftIn src dst mem
  funext b iz ir
  by_cases hb : b = dst
  · subst hb
    rw [fft_full]
    by_cases hi : iz < c.Nz ∧ ir < c.Nr
    · rw [if_pos hi]
      exact ha.1 _ _ hi.1 hi.2
    · rw [if_neg hi]
      have : ∃ a, (transOn c d m).fft inv src b mem b iz ir
          = copy1dTo2d c.Nz c.Nr d.threads a (mem b) iz ir := by
        unfold Trans.fft Transform.fft
        exact ⟨_, (congrFun (congrFun (congrFun (if_pos rfl) b) iz) ir).trans
          (congrFun (congrFun (if_pos rfl) iz) ir)⟩
      obtain ⟨a, ha⟩ := this
      rw [ha, copy1dTo2d_outside _ _ _ hc _ _ _ _ hi]
  · rw [fft_other c m inv src dst mem b hb]
    exact congrFun (congrFun (ha.2 b hb) iz) ir

section
variable {d : Dev} (h : d.Launch c)
include h

theorem toSpectScal_gpu : toSpectScal c d = c.toSpectScal := by
  funext m a out
  unfold toSpectScal Cfg.toSpectScal Trans.interp2spectScal
  rw [fft_gpu c h, dht_gpu c h]
  rfl

theorem toInterpScal_gpu : toInterpScal c d = c.toInterpScal := by
  funext m a out
  unfold toInterpScal Cfg.toInterpScal Trans.spect2interpScal
  rw [dht_gpu c h, fft_gpu c h]
  rfl

theorem interp2spectVect_gpu (m a b p q : ℕ) (mem : Mem) :
    (transOn c d m).interp2spectVect a b p q mem = (c.trans m).interp2spectVect a b p q mem := by
  unfold Trans.interp2spectVect
  simp only []
  rw [fft_gpu c h, fft_gpu c h, dht_gpu c h, dht_gpu c h]
  rw [show rtToPm (transOn c d m).Nz (transOn c d m).Nr (transOn c d m).threads
    = rtToPm c.Nz c.Nr (loop2d c.Nz c.Nr) by funext r t p q mem; exact rtToPm_gpu c h r t p q mem]
  rfl

theorem spect2interpVect_gpu (m a b p q : ℕ) (mem : Mem) :
    (transOn c d m).spect2interpVect a b p q mem = (c.trans m).spect2interpVect a b p q mem := by
  unfold Trans.spect2interpVect
  simp only []
  rw [fft_gpu c h, fft_gpu c h, dht_gpu c h, dht_gpu c h]
  rw [show pmToRt (transOn c d m).Nz (transOn c d m).Nr (transOn c d m).threads
    = pmToRt c.Nz c.Nr (loop2d c.Nz c.Nr) by funext r t p q mem; exact pmToRt_gpu c h r t p q mem]
  rfl

theorem toSpectVect_gpu : toSpectVect c d = c.toSpectVect := by
  funext m r t p q
  unfold toSpectVect Cfg.toSpectVect
  rw [interp2spectVect_gpu c h]

theorem toInterpVect_gpu : toInterpVect c d = c.toInterpVect := by
  funext m r t p q
  unfold toInterpVect Cfg.toInterpVect
  rw [spect2interpVect_gpu c h]

end

variable {d : ℕ → Dev} (h : ∀ k, (d k).Launch c)
include h

theorem spectE_gpu : spectE c d = c.spectE := by
  unfold spectE Cfg.spectE
  rw [toSpectScal_gpu c (h 0), toSpectVect_gpu c (h 1)]

theorem spectB_gpu : spectB c d = c.spectB := by
  unfold spectB Cfg.spectB
  rw [toSpectScal_gpu c (h 2), toSpectVect_gpu c (h 3)]

theorem spectJ_gpu : spectJ c d = c.spectJ := by
  unfold spectJ Cfg.spectJ
  rw [toSpectScal_gpu c (h 0), toSpectVect_gpu c (h 1)]

theorem spectRho_gpu : spectRho c d = c.spectRho := by
  unfold spectRho Cfg.spectRho
  rw [toSpectScal_gpu c (h 0)]

theorem interpEB_gpu : interpEB c d = c.interpEB := by
  unfold interpEB Cfg.interpEB
  rw [toInterpScal_gpu c (h 0), toInterpVect_gpu c (h 1), toInterpScal_gpu c (h 2), toInterpVect_gpu c (h 3)]

theorem interpSources_gpu : interpSources c d = c.interpSources := by
  unfold interpSources Cfg.interpSources
  rw [toInterpScal_gpu c (h 0), toInterpVect_gpu c (h 1), toInterpScal_gpu c (h 2)]

end

/-- Some launch. -/
theorem exists_launch : ∃ d : ℕ → ℕ → Dev, ∀ m k, (d m k).Launch c :=
  ⟨fun _ _ => ⟨grid2d c.Nz c.Nr 1 1, fun _ _ => 0, fun _ _ => 0, fun _ => 0⟩, fun _ _ =>
    ⟨1, 1, one_pos, one_pos, List.Perm.refl _⟩⟩

end Fbpic.Pic.Gpu
