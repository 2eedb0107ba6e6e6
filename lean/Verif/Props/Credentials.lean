import Verif.Props.S3Streams

/-!
# C99: credentials do not reach the dataset
-/

namespace AZ
open Spec

/-- Settings without endpoint, access key and secret. -/
def withoutCredentials (s : Settings) : Settings :=
  { s with s3 := s.s3.map fun x => { x with endpoint := none, accessKeyId := none, secretAccessKey := none } }

/-- **C99.** Two streams whose settings differ only in endpoint, access key and secret, both accepted: every call returns the same, the error
state is the same, and the same bytes are stored under the same names in the same order. So nothing that is stored, and no result,
tells anything about the credentials. -/
theorem credentials_not_stored {w : World} {env : Env} {fuel : Nat} {s s' : Settings}
    (hs : withoutCredentials s = withoutCredentials s') (hv : validateSettings w (some s) = .ok true)
    (hv' : validateSettings w (some s') = .ok true) (calls : List Bytes) :
    runStream w env fuel s calls = runStream w env fuel s' calls := by
  cases s with
  | mk p m s3 c d ms dt v =>
  cases s' with
  | mk p' m' s3' c' d' ms' dt' v' =>
  unfold withoutCredentials at hs
  simp only [Settings.mk.injEq] at hs
  obtain ⟨rfl, rfl, h3, rfl, rfl, rfl, rfl, rfl⟩ := hs
  have hb : s3.map (fun x => trim (x.bucketName.getD [])) = s3'.map (fun x => trim (x.bucketName.getD [])) := by
    have := congrArg (Option.map fun x : S3Settings => trim (x.bucketName.getD [])) h3
    rw [Option.map_map, Option.map_map] at this
    exact this
  have hc : commitSettings ⟨p, m, s3, c, d, ms, dt, v⟩ = commitSettings ⟨p, m, s3', c, d, ms, dt, v⟩ := by
    unfold commitSettings
    simp only [hb]
  unfold runStream createStream
  rw [hv, hv']
  simp only
  rw [hc]
  rfl

/-- A non-trivial instance: the S3 sample with other credentials. -/
example : validateSettings Sample.world (some (Sample.slabS3 3 2 1)) = .ok true ∧
    (let s' := { Sample.slabS3 3 2 1 with
        s3 := (Sample.slabS3 3 2 1).s3.map fun x => { x with accessKeyId := some "me".toList, secretAccessKey := some "hush".toList } }
    s' ≠ Sample.slabS3 3 2 1 ∧ withoutCredentials s' = withoutCredentials (Sample.slabS3 3 2 1) ∧
      validateSettings Sample.world (some s') = .ok true) := by
  refine ⟨rfl, by decide, rfl, rfl⟩

end AZ
