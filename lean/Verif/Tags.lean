import Verif.Basic
/-! # Wire tags — models jsonpickle/tags.py:10-58 -/
namespace JP.Tags

def BYTES : Str := p!"py/bytes"
def BYTEARRAY : Str := p!"py/bytea"
def B64 : Str := p!"py/b64"
def B85 : Str := p!"py/b85"
def FUNCTION : Str := p!"py/function"
def ID : Str := p!"py/id"
def INITARGS : Str := p!"py/initargs"
def ITERATOR : Str := p!"py/iterator"
def JSON_KEY : Str := p!"json://"
def MODULE : Str := p!"py/mod"
def NEWARGS : Str := p!"py/newargs"
def NEWARGSEX : Str := p!"py/newargsex"
def NEWOBJ : Str := p!"py/newobj"
def OBJECT : Str := p!"py/object"
def PROPERTY : Str := p!"py/property"
def REDUCE : Str := p!"py/reduce"
def DEFAULT_FACTORY : Str := p!"py/default_factory"
def REF : Str := p!"py/ref"
def REPR : Str := p!"py/repr"
def SEQ : Str := p!"py/seq"
def SET : Str := p!"py/set"
def STATE : Str := p!"py/state"
def TUPLE : Str := p!"py/tuple"
def TYPE : Str := p!"py/type"

/-- tags.py:36-58.  Note that `B64`, `B85` and `JSON_KEY` are not members. -/
def RESERVED : List Str :=
  [BYTES, BYTEARRAY, FUNCTION, ID, INITARGS, ITERATOR, MODULE, NEWARGS, NEWARGSEX, NEWOBJ, OBJECT,
   PROPERTY, REDUCE, DEFAULT_FACTORY, REF, REPR, SEQ, SET, STATE, TUPLE, TYPE]

/-- `k in tags.RESERVED`. -/
def isReserved (k : Str) : Bool := RESERVED.contains k

end JP.Tags
