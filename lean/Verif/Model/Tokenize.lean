/-!
Model of the text features of the TwinBERT encoder:
`TriLetterTokenizer` and `StdBertTokenizer`
(src/python/deepgnn/pytorch/encoding/twinbert/tokenization.py:1-60) and
`TwinBERTFeatureEncoder.transform` (src/python/deepgnn/pytorch/encoding/feature_encoder.py:118-196).

Texts are lists of code points. Simplifications: `str.lower` is modelled for ASCII only (the Kelvin
sign and the dotted capital I are the only other characters whose lower case has ASCII letters). The word piece
algorithm of the `transformers` package is an abstract function.
-/

namespace DeepGNN.Tokenize

abbrev Text := List Nat

/-- `str.lower` for one ASCII character
(src/python/deepgnn/pytorch/encoding/twinbert/tokenization.py:38). -/
def lower (c : Nat) : Nat := if 65 ≤ c ∧ c ≤ 90 then c + 32 else c

/-- The complement of the pattern `[^a-zA-Z0-9 ]`
(src/python/deepgnn/pytorch/encoding/twinbert/tokenization.py:24). -/
def valid (c : Nat) : Bool :=
  (97 ≤ c && c ≤ 122) || (65 ≤ c && c ≤ 90) || (48 ≤ c && c ≤ 57) || c == 32

/-- `multispace.sub(" ", …)`: a run of spaces becomes one
(src/python/deepgnn/pytorch/encoding/twinbert/tokenization.py:25,40). -/
def collapse (afterSpace : Bool) : Text → Text
  | [] => []
  | c :: cs =>
    if c = 32 then (if afterSpace then collapse true cs else 32 :: collapse true cs)
    else c :: collapse false cs

/-- `str.strip` of the characters in `p`. -/
def stripBy (p : Nat → Bool) (t : Text) : Text :=
  ((t.dropWhile p).reverse.dropWhile p).reverse

/-- `str.split(" ")` (src/python/deepgnn/pytorch/encoding/twinbert/tokenization.py:42). -/
def splitSpace : Text → List Text
  | [] => [[]]
  | c :: cs =>
    if c = 32 then [] :: splitSpace cs
    else match splitSpace cs with
      | w :: ws => (c :: w) :: ws
      | [] => [[c]]

/-- The words of a text. After the invalid characters are gone spaces are the only whitespace that
`strip` meets (src/python/deepgnn/pytorch/encoding/twinbert/tokenization.py:37-42). -/
def textWords (t : Text) : List Text :=
  splitSpace (stripBy (· == 32) (collapse false ((t.map lower).filter valid)))

/-- `_init_lg3_dict`: tokens by line, the newest entry first; numbers start with 1
(src/python/deepgnn/pytorch/encoding/twinbert/tokenization.py:27-35). -/
def loadVocab (lines : List Text) : List (Text × Nat) :=
  (lines.zipIdx).foldl (fun d p =>
    let token := stripBy (fun c => c == 13 || c == 10) p.1
    if token.length = 0 then d else (token, p.2 + 1) :: d) []

/-- `token in self.l3g_dict` and `self.l3g_dict[token]`. -/
def idOf (d : List (Text × Nat)) (t : Text) : Option Nat := d.lookup t

/-- The character `#` (src/python/deepgnn/pytorch/encoding/twinbert/tokenization.py:51). -/
def hash : Nat := 35

/-- The assignments to `feature_seq` in `_from_words_to_id_sequence`, in order
(src/python/deepgnn/pytorch/encoding/twinbert/tokenization.py:49-57). -/
def writes (d : List (Text × Nat)) (words : List Text) (maxSeqLen maxLetters : Nat) : List (Nat × Nat) :=
  (List.range (min words.length maxSeqLen)).flatMap fun i =>
    let w := words.getD i []
    let word := hash :: (if w = [] then [hash] else w) ++ [hash]
    (List.range (min (word.length - 2) maxLetters)).filterMap fun j =>
      (idOf d ((word.drop j).take 3)).map fun v => (i * maxLetters + j, v)

/-- Assignments to elements of an array, one after the other. -/
def store (ws : List (Nat × Nat)) (arr : List Nat) : List Nat :=
  ws.foldl (fun a p => a.set p.1 p.2) arr

/-- `_from_words_to_id_sequence`: ids and mask
(src/python/deepgnn/pytorch/encoding/twinbert/tokenization.py:45-59). -/
def wordsToIds (d : List (Text × Nat)) (words : List Text) (maxSeqLen maxLetters : Nat) :
    List Nat × List Nat :=
  (store (writes d words maxSeqLen maxLetters) (List.replicate (maxSeqLen * maxLetters) 0),
    store ((List.range (min words.length maxSeqLen)).map fun i => (i, 1)) (List.replicate maxSeqLen 0))

/-- `TriLetterTokenizer.extract_from_sentence`
(src/python/deepgnn/pytorch/encoding/twinbert/tokenization.py:37-43). -/
def triLetter (d : List (Text × Nat)) (maxSeqLen maxLetters : Nat) (t : Text) : List Nat × List Nat :=
  wordsToIds d (textWords t) maxSeqLen maxLetters

/-- `StdBertTokenizer.extract_from_sentence`; `encode` is `BertTokenizer.encode`
(src/python/deepgnn/pytorch/encoding/twinbert/tokenization.py:9-16). -/
def stdBert (encode : Text → List Nat) (maxSeqLen : Nat) (t : Text) : List Nat × List Nat :=
  let ret := encode t
  let n := min maxSeqLen ret.length
  (ret.take n ++ (List.replicate maxSeqLen 0).drop n,
    List.replicate n 1 ++ (List.replicate maxSeqLen 0).drop n)

/-- `bytes.decode("utf-8")`, strict. `need` bytes of a character are outstanding, the next one must
be between `lo` and `hi` (src/python/deepgnn/pytorch/encoding/feature_encoder.py:143-147). -/
def decodeFrom (need acc lo hi : Nat) : List Nat → Option Text
  | [] => if need = 0 then some [] else none
  | b :: bs =>
    if need = 0 then
      if b < 0x80 then (decodeFrom 0 0 0 0 bs).map (b :: ·)
      else if 0xC2 ≤ b ∧ b ≤ 0xDF then decodeFrom 1 (b - 0xC0) 0x80 0xBF bs
      else if b = 0xE0 then decodeFrom 2 0 0xA0 0xBF bs
      else if b = 0xED then decodeFrom 2 13 0x80 0x9F bs
      else if 0xE1 ≤ b ∧ b ≤ 0xEF then decodeFrom 2 (b - 0xE0) 0x80 0xBF bs
      else if b = 0xF0 then decodeFrom 3 0 0x90 0xBF bs
      else if 0xF1 ≤ b ∧ b ≤ 0xF3 then decodeFrom 3 (b - 0xF0) 0x80 0xBF bs
      else if b = 0xF4 then decodeFrom 3 4 0x80 0x8F bs
      else none
    else if lo ≤ b ∧ b ≤ hi then
      let acc := acc * 64 + (b - 0x80)
      if need = 1 then (decodeFrom 0 0 0 0 bs).map (acc :: ·)
      else decodeFrom (need - 1) acc 0x80 0xBF bs
    else none

/-- `bytearray(sentence).decode(encoding="utf-8").strip("\0 \t\n")`
(src/python/deepgnn/pytorch/encoding/feature_encoder.py:143-147). -/
def sentenceText (bytes : List Nat) : Option Text :=
  (decodeFrom 0 0 0 0 bytes).map (stripBy fun c => c == 0 || c == 32 || c == 9 || c == 10)

/-- A numpy array in row-major order. -/
structure Arr where
  shape : List Nat
  data : List Nat
  deriving DecidableEq

/-- The number of elements of an array with the given shape. -/
def size : List Nat → Nat
  | [] => 1
  | n :: ns => n * size ns

/-- `np.reshape`: fails if the number of elements differs. -/
def reshape (a : Arr) (shape : List Nat) : Option Arr :=
  if a.data.length = size shape then some ⟨shape, a.data⟩ else none

/-- `np.asarray` of a list of lists of equal lengths: without rows the array has one dimension. -/
def asarray (rows : List (List Nat)) : Arr :=
  match rows with
  | [] => ⟨[0], []⟩
  | r :: _ => ⟨[rows.length, r.length], rows.flatten⟩

/-- The rows of an array that is reshaped to `[-1, len]`. -/
def rowsOf (len cnt : Nat) (data : List Nat) : List (List Nat) :=
  (List.range cnt).map fun k => (data.drop (k * len)).take len

/-- The body of `_tokenize` for one array of bytes: sequence ids and mask. Arrays with no or one dimension
raise IndexError (src/python/deepgnn/pytorch/encoding/feature_encoder.py:131-167). -/
def tokenizeArr (tok : Text → List Nat × List Nat) (a : Arr) : Option (Arr × Arr) :=
  match a.shape.getLast? with
  | none => none
  | some len =>
    let outer := a.shape.dropLast
    if outer = [] then none
    else
      let cnt := size outer
      let rows := if len ≠ 0 then (rowsOf len cnt a.data).mapM fun s => (sentenceText s).map tok
        else some (List.replicate cnt (tok []))
      rows.bind fun rows =>
        let seq := asarray (rows.map (·.1))
        let mask := asarray (rows.map (·.2))
        (reshape seq (outer ++ seq.shape.drop 1)).bind fun s =>
          (reshape mask (outer ++ mask.shape.drop 1)).map fun m => (s, m)

/-- The body of `_extract_sequence_id_and_mask` for one array: `data[:, : -n]` and `data[:, -n :]` cut
along the second dimension. Python's `[: -0]` is empty and `[-0 :]` is everything
(src/python/deepgnn/pytorch/encoding/feature_encoder.py:169-190). -/
def extractArr (maxSeqLen : Nat) (a : Arr) : Option (Arr × Arr) :=
  match a.shape with
  | b :: n :: rest =>
    if maxSeqLen ≤ (a.shape.getLast?).getD 0 then
      let block := size rest
      let cut := if maxSeqLen = 0 then 0 else n - maxSeqLen
      let rows := rowsOf (n * block) b a.data
      let seq : Arr := ⟨b :: cut :: rest, (rows.map fun r => r.take (cut * block)).flatten⟩
      let mask : Arr := ⟨b :: (n - cut) :: rest, (rows.map fun r => r.drop (cut * block)).flatten⟩
      (reshape seq (a.shape.dropLast ++ seq.shape.drop 1)).bind fun s =>
        (reshape mask (a.shape.dropLast ++ mask.shape.drop 1)).map fun m => (s, m)
    else none
  | _ => none

/-- A context: nested dictionaries with arrays of bytes, of which some are already replaced by
sequence ids and mask, and anything else (src/python/deepgnn/pytorch/encoding/feature_encoder.py:118-136). -/
inductive Ctx where
  | dict (items : List (String × Ctx))
  | bytes (a : Arr)
  | tokens (seq mask : Arr)
  | other (a : Arr)

mutual
/-- `_tokenize` for one value: dictionaries are walked through, arrays of bytes replaced
(src/python/deepgnn/pytorch/encoding/feature_encoder.py:118-167). -/
def transform (tok : Text → List Nat × List Nat) : Ctx → Option Ctx
  | .dict items => (transformItems tok items).map .dict
  | .bytes a => (tokenizeArr tok a).map fun p => .tokens p.1 p.2
  | .tokens s m => some (.tokens s m)
  | .other a => some (.other a)
/-- The loop over the keys of a dictionary
(src/python/deepgnn/pytorch/encoding/feature_encoder.py:124-131). -/
def transformItems (tok : Text → List Nat × List Nat) :
    List (String × Ctx) → Option (List (String × Ctx))
  | [] => some []
  | (k, v) :: rest =>
    (transform tok v).bind fun v' => (transformItems tok rest).map fun rest' => (k, v') :: rest'
end

end DeepGNN.Tokenize
