import Verif.Recovery.Manager
import Verif.Recovery.Spec
import Verif.Flash.Lemmas
/-! Histories of the recovery image manager. -/
namespace Verif.Recovery
open Flash (Mem Dev FS Touched)

/-- What can be done with the manager, and a reset. -/
inductive Op
  | getActive
  | free (g : Reg)
  | clear (size : Nat)
  | write (d : Bytes)
  | activate (fuel : Nat)
  | eraseAll
  | measure (offset length : Nat)
  | persist            -- the host state is written to flash
  | reset (fuel : Nat)

/-- One operation. Without a successful initialization there is only reset. -/
def step (lay : Layout) (dv : Dev) (env : Env) (s : Mgr) (op : Op) : Except MErr Unit × Mgr :=
  match op with
  | .reset fuel => reset lay dv env s fuel
  | op =>
    if !s.up then (.error .down, s)
    else
      match op with
      | .getActive => (.ok (), (Recovery.getActive lay s).2)
      | .free g => (.ok (), Recovery.free s g)
      | .clear size => Recovery.clear lay dv s size
      | .write d => writeData dv env s d
      | .activate fuel => Recovery.activate lay env s fuel
      | .eraseAll => Recovery.eraseAll lay dv s
      | .measure o l => ((measuredData lay env s o l).1.map fun _ => (), (measuredData lay env s o l).2)
      | .persist => (.ok (), { s with saved := s.active })
      | .reset fuel => Recovery.reset lay dv env s fuel

/-- Two environments that differ only in what fails and in the active PFM. -/
def Same (e f : Env) : Prop := e.w = f.w ∧ e.size = f.size ∧ e.sha = f.sha ∧ e.sigOk = f.sigOk

/-- The regions: they are in the address space, erase blocks are not empty, and no erase block belongs to both. -/
structure LayoutOk (lay : Layout) (dv : Dev) (env : Env) : Prop where
  block : 0 < dv.block
  fits : ∀ g, lay.base g + lay.max < 2 ^ 32
  apart : lay.two = true → ∀ i, Touched dv.block (lay.base .r1) lay.max i → ¬ Touched dv.block (lay.base .r2) lay.max i
  width : 32 ≤ env.w

/-- The erase blocks of a region. -/
def InRegion (lay : Layout) (dv : Dev) (g : Reg) (i : Nat) : Prop := Touched dv.block (lay.base g) lay.max i

/-- Buffers given to the manager fit the address space of the processor. -/
def Op.Fits (lay : Layout) (env : Env) : Op → Prop
  | .write d => lay.max + d.length < 2 ^ env.w
  | _ => True

/-- All histories, from any contents of the flash. -/
inductive Reach (lay : Layout) (dv : Dev) (env0 : Env) : Mgr → Prop
  | init (s : Mgr) (env : Env) (fuel : Nat) : Same env env0 → Reach lay dv env0 (reset lay dv env s fuel).2
  | step (s : Mgr) (env : Env) (op : Op) : Reach lay dv env0 s → Same env env0 → op.Fits lay env0 → Reach lay dv env0 (step lay dv env s op).2

/-- The region that the user of the manager gets as the active image. -/
def activeImage (lay : Layout) (s : Mgr) : Option Reg := if (s.r (region lay s true)).valid then some (region lay s true) else none

/-- The image in region `g` was verified, and the region has not changed since. `h` is the digest of the image at that time. -/
def VerifiedAs (lay : Layout) (dv : Dev) (env0 : Env) (m : Mem) (g : Reg) (h : Bytes) : Prop :=
  ∃ env m0 fuel, Same env env0 ∧ verify env m0 fuel (lay.base g) = (.ok (), some h) ∧ ∀ i, InRegion lay dv g i → m i = m0 i

end Verif.Recovery
