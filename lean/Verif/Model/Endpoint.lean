import Verif.Model.Settings

/-!
# The connections of an S3 stream
-/

namespace AZ.S3

/-- What a connection of the stream is made of: the endpoint text handed to minio-cpp, the credentials, and whether the connection is
encrypted. Models the members of `S3Connection` set at `src/streaming/s3.connection.cpp:10-22`; minio-cpp's own reading of the endpoint
(host, port) is not modelled, the flag `https` it finds is overwritten. -/
structure Link where
  endpoint : Text
  accessKeyId : Text
  secretAccessKey : Text
  https : Bool
  deriving Repr, DecidableEq

/-- `S3Connection::S3Connection` (`src/streaming/s3.connection.cpp:10-22`). -/
def newLink (endpoint accessKeyId secretAccessKey : Text) : Link where
  endpoint := endpoint
  accessKeyId := accessKeyId
  secretAccessKey := secretAccessKey
  https := "https".toList.isPrefixOf endpoint

/-- The loop of `S3ConnectionPool::S3ConnectionPool` (`src/streaming/s3.connection.cpp:222-230`): for each test that succeeds
(`valid`), a connection like the tested one is kept. -/
def poolLinks (endpoint accessKeyId secretAccessKey : Text) : List Bool → List Link
  | [] => []
  | valid :: vs =>
    let rest := poolLinks endpoint accessKeyId secretAccessKey vs
    if valid then newLink endpoint accessKeyId secretAccessKey :: rest else rest

/-- The connections of a stream with these settings: `commit_settings_` (`src/streaming/zarr.stream.cpp:501-509`) and `create_store_`
(`src/streaming/zarr.stream.cpp:546-553`). NULL strings do not get here (`Model.Settings`). -/
def streamLinks (s : Settings) (valid : List Bool) : List Link :=
  match s.s3 with
  | none => []
  | some x => poolLinks (trim (x.endpoint.getD [])) (trim (x.accessKeyId.getD [])) (trim (x.secretAccessKey.getD [])) valid

end AZ.S3
