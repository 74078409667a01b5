/- Independent vocabulary for the library properties C49-C57. -/
import Verif.Model.Rollback
import Verif.Spec.Install

namespace Pkgr.Spec
open Pkgr

/-- A package name that is one ordinary path component. -/
def PlainName (n : Str) : Prop := n ≠ [] ∧ n ≠ s%"." ∧ n ≠ s%".." ∧ '/' ∉ n

instance (n : Str) : Decidable (PlainName n) := by unfold PlainName; infer_instance

/-- The directory a package is set aside in. -/
def backupName (p : Str) : Str := s%"__OLD__" ++ p

/-- Names of R's own lock directories. -/
def IsLock (n : Str) : Prop := (s%"00LOCK") <+: n

instance (n : Str) : Decidable (IsLock n) := by unfold IsLock; infer_instance

/-- The packages of a plan: those installed by the queue and the tarballs. -/
def queued (ip : InstallPlan) : List Str := ip.starting ++ GoMap.keys ip.depDb
/-- see `queued` -/
def tarballs (ip : InstallPlan) : List Str := GoMap.keys ip.additional
/-- see `queued` -/
def members (ip : InstallPlan) : List Str := queued ip ++ tarballs ip

/-- Two file systems agree in the library, except below the names that satisfy `S`. -/
def Keeps (lib : Path) (S : Str → Prop) (fs st : Fs) : Prop :=
  ∀ q, lib <+: q → (∀ n, S n → ¬ (lib ++ [n]) <+: q) → st q = fs q

/-- Executions of the installation queue: any interleaving of jobs, one per package; a job begins only if the
package's directory is not there, and each of its steps changes nothing in the library but its own package's
directory and lock. -/
inductive JobRun (lib : Path) (jobs : List Str) (fs0 : Fs) : Fs → List Str → Prop where
  | start : JobRun lib jobs fs0 fs0 []
  | begin (fs : Fs) (act : List Str) (p : Str) : JobRun lib jobs fs0 fs act → p ∈ jobs →
      fs (lib ++ [p]) ≠ some .dir → JobRun lib jobs fs0 fs (p :: act)
  | write (fs fs' : Fs) (act : List Str) (p : Str) : JobRun lib jobs fs0 fs act → p ∈ act →
      Keeps lib (fun n => n = p ∨ n = lockName p) fs fs' → JobRun lib jobs fs0 fs' act

/-- What the surroundings of a run may do to the library: downloads nothing; the queue as in `JobRun`; R only
what R does; a removal only removes what it was asked to remove. -/
structure Behaves (e : RunEnv) (lib : Path) (ip : InstallPlan) : Prop where
  download : ∀ fs, ∀ st ∈ (e.download fs).mid ++ [(e.download fs).fs], SameIn lib fs st
  queue : ∀ fs, ∀ st ∈ (e.planned fs).mid ++ [(e.planned fs).fs], ∃ act, JobRun lib (queued ip) fs st act
  R : RConfined e.ie.R lib
  during : ∀ n fs, ∀ st ∈ e.during n fs, Keeps lib (fun m => m = n ∨ m = lockName n) fs st
  removal : ∀ fs p, ∀ st ∈ (e.disk.removing fs p).1, (∀ q, ¬ p <+: q → st q = fs q) ∧ (∀ q, st q = fs q ∨ st q = none)
  order : e.ρ.Fair

/-- No I/O error occurs. -/
def NoFaults (d : Disk) : Prop := (∀ fs a b, d.renameFails fs a b = false) ∧ (∀ fs p, (d.removing fs p).2 = false)

/-- Ordinary package names: one path component, not a lock, not a backup. -/
def GoodNames (ip : InstallPlan) : Prop :=
  ∀ p ∈ members ip, PlainName p ∧ ¬ IsLock p ∧ ¬ (s%"__OLD__") <+: p

/-- A library in order, with respect to a plan and to the packages found in it before: a found package has its
directory, one that was not found has nothing at its place, and no backup is left over. -/
structure InOrder (lib : Path) (ip : InstallPlan) (pre : GoMap Desc) (fs : Fs) : Prop where
  found : ∀ p ∈ members ip, GoMap.has pre p = true → fs (lib ++ [p]) = some .dir
  notFound : ∀ p ∈ members ip, GoMap.has pre p = false → ∀ r, fs (lib ++ p :: r) = none
  noBackup : ∀ p ∈ members ip, ∀ r, fs (lib ++ backupName p :: r) = none

/-- The outdated packages of a plan were found in the library, each is listed once; each tarball package too; and
no tarball package is outdated. -/
structure PlanOK (ip : InstallPlan) (pre : GoMap Desc) : Prop where
  outdatedFound : ∀ o ∈ ip.outdated, GoMap.has pre o.package = true
  outdatedOnce : (ip.outdated.map OutdatedPackage.package).Nodup
  tarballOnce : (tarballs ip).Nodup
  disjoint : ∀ o ∈ ip.outdated, o.package ∉ tarballs ip

/-- `p`'s directory holds in `st` what it held in `fs0`. -/
def Intact (lib : Path) (fs0 st : Fs) (p : Str) : Prop := ∀ r, st (lib ++ p :: r) = fs0 (lib ++ p :: r)

/-- `p`'s backup holds in `st` what `p` held in `fs0`. -/
def Saved (lib : Path) (fs0 st : Fs) (p : Str) : Prop := ∀ r, st (lib ++ backupName p :: r) = fs0 (lib ++ p :: r)

/-- Nothing is stored under the name `n`. -/
def Gone (lib : Path) (st : Fs) (n : Str) : Prop := ∀ r, st (lib ++ n :: r) = none

/-- Renaming a package directory to its backup name does not fail. -/
def TagsOK (d : Disk) (lib : Path) (ps : List Str) : Prop :=
  ∀ p ∈ ps, ∀ fs, d.renameFails fs (lib ++ [p]) (lib ++ [backupName p]) = false

/-- What the library says about the package in the directory `n`. -/
def described (parse : Str → Option Desc) (fs : Fs) (lib : Path) (n : Str) : Option Desc :=
  match fs (lib ++ [n, s%"DESCRIPTION"]) with
  | some (.file c) => parse c
  | _ => none

end Pkgr.Spec
