import Verif.Model.Core

/-!
# Encodings of dataset files

`integrated_datasets.py:61-110,137-145`, `db_dataset.py:667-687`, `mem_dataset.py:37,307`.  Simplifications: the default
encoding of `open(path, 'r')` and `open(path, 'w')` is UTF-8 (it depends on the platform); line ends are
not translated.
-/

namespace DRec

/-- The encodings that occur in `DATASETS` (`integrated_datasets.py:26-56`). -/
inductive Enc where
  | utf8
  | latin1
  deriving DecidableEq

/-- `bytes.decode('latin1')`: every byte is the character with that number. -/
def latin1Decode (b : ByteArray) : List Char := b.data.toList.map fun x => Char.ofNat x.toNat

/-- Decode bytes; `none` when that raises `UnicodeDecodeError`. -/
def Enc.decode : Enc → ByteArray → Option (List Char)
  | .utf8, b => b.utf8Decode?.map (·.toList)
  | .latin1, b => some (latin1Decode b)

/-- Text written without naming an encoding: `open(path, 'w')` (`integrated_datasets.py:89-90`, `db_dataset.py:435-442`)
and `to_csv` (`mem_dataset.py:307`). -/
noncomputable def writeText (t : List Char) : ByteArray := t.utf8Encode

/-- Reading a file into memory (`mem_dataset.py:37`): `pd.read_csv(..., encoding=encoding)`. -/
def readMem (e : Enc) (b : ByteArray) : Option (List Char) := e.decode b

/-- Reading a file into a database (`db_dataset.py:667-687`): the lines are first counted with the
default encoding and then read with the given one. -/
def readDb (e : Enc) (b : ByteArray) : Option (List Char) :=
  match Enc.utf8.decode b with
  | none => none
  | some _ => e.decode b

/-- Reading by backend. -/
def readFile (inMemory : Bool) : Enc → ByteArray → Option (List Char) := if inMemory then readMem else readDb

/-- The file left by `download_dataset` for a dataset that is not an archive (`integrated_datasets.py:88-90`). -/
noncomputable def downloadFile (e : Enc) (data : ByteArray) : Option ByteArray := (e.decode data).map writeText

/-- `get_full_dataset` after a download: the text of the records. -/
noncomputable def getFull (e : Enc) (inMemory : Bool) (data : ByteArray) : Option (List Char) :=
  (downloadFile e data).bind (readFile inMemory e)

/-- What the first call of `get_train_dataset` returns, as text, and the file it leaves
(`integrated_datasets.py:137-145`); `part` selects and prints the train records. -/
noncomputable def firstTrain (e : Enc) (inMemory : Bool) (part : List Char → List Char) (data : ByteArray) :
    Option (List Char × ByteArray) :=
  (getFull e inMemory data).map fun full => (part full, writeText (part full))

/-- What a later call returns from the file (`integrated_datasets.py:133-135,102-104`). -/
def laterTrain (e : Enc) (inMemory : Bool) (file : ByteArray) : Option (List Char) := readFile inMemory e file

end DRec
