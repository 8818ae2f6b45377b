import Verif.Model.Py
/-!
# Model of `postgresql/resolved/crypt.py`

Integers are never negative here: those of `ii_struct` (struct '<ii') may be, but are masked at once. Indexes are always within the tables.
The key schedule `k` is a list of the pairs `(k[2*i], k[2*i + 1])`.
-/
namespace PG.Crypt
open PG

/-- resolved/crypt.py:128-145 `_SPtrans[0]`. -/
def sp0 : List Nat := [
    0x00820200, 0x00020000, 0x80800000, 0x80820200, 0x00800000, 0x80020200, 0x80020000, 0x80800000, 0x80020200, 0x00820200, 0x00820000, 0x80000200,
    0x80800200, 0x00800000, 0x00000000, 0x80020000, 0x00020000, 0x80000000, 0x00800200, 0x00020200, 0x80820200, 0x00820000, 0x80000200, 0x00800200,
    0x80000000, 0x00000200, 0x00020200, 0x80820000, 0x00000200, 0x80800200, 0x80820000, 0x00000000, 0x00000000, 0x80820200, 0x00800200, 0x80020000,
    0x00820200, 0x00020000, 0x80000200, 0x00800200, 0x80820000, 0x00000200, 0x00020200, 0x80800000, 0x80020200, 0x80000000, 0x80800000, 0x00820000,
    0x80820200, 0x00020200, 0x00820000, 0x80800200, 0x00800000, 0x80000200, 0x80020000, 0x00000000, 0x00020000, 0x00800000, 0x80800200, 0x00820200,
    0x80000000, 0x80820000, 0x00000200, 0x80020200]

/-- resolved/crypt.py:146-163 `_SPtrans[1]`. -/
def sp1 : List Nat := [
    0x10042004, 0x00000000, 0x00042000, 0x10040000, 0x10000004, 0x00002004, 0x10002000, 0x00042000, 0x00002000, 0x10040004, 0x00000004, 0x10002000,
    0x00040004, 0x10042000, 0x10040000, 0x00000004, 0x00040000, 0x10002004, 0x10040004, 0x00002000, 0x00042004, 0x10000000, 0x00000000, 0x00040004,
    0x10002004, 0x00042004, 0x10042000, 0x10000004, 0x10000000, 0x00040000, 0x00002004, 0x10042004, 0x00040004, 0x10042000, 0x10002000, 0x00042004,
    0x10042004, 0x00040004, 0x10000004, 0x00000000, 0x10000000, 0x00002004, 0x00040000, 0x10040004, 0x00002000, 0x10000000, 0x00042004, 0x10002004,
    0x10042000, 0x00002000, 0x00000000, 0x10000004, 0x00000004, 0x10042004, 0x00042000, 0x10040000, 0x10040004, 0x00040000, 0x00002004, 0x10002000,
    0x10002004, 0x00000004, 0x10040000, 0x00042000]

/-- resolved/crypt.py:164-181 `_SPtrans[2]`. -/
def sp2 : List Nat := [
    0x41000000, 0x01010040, 0x00000040, 0x41000040, 0x40010000, 0x01000000, 0x41000040, 0x00010040, 0x01000040, 0x00010000, 0x01010000, 0x40000000,
    0x41010040, 0x40000040, 0x40000000, 0x41010000, 0x00000000, 0x40010000, 0x01010040, 0x00000040, 0x40000040, 0x41010040, 0x00010000, 0x41000000,
    0x41010000, 0x01000040, 0x40010040, 0x01010000, 0x00010040, 0x00000000, 0x01000000, 0x40010040, 0x01010040, 0x00000040, 0x40000000, 0x00010000,
    0x40000040, 0x40010000, 0x01010000, 0x41000040, 0x00000000, 0x01010040, 0x00010040, 0x41010000, 0x40010000, 0x01000000, 0x41010040, 0x40000000,
    0x40010040, 0x41000000, 0x01000000, 0x41010040, 0x00010000, 0x01000040, 0x41000040, 0x00010040, 0x01000040, 0x00000000, 0x41010000, 0x40000040,
    0x41000000, 0x40010040, 0x00000040, 0x01010000]

/-- resolved/crypt.py:182-199 `_SPtrans[3]`. -/
def sp3 : List Nat := [
    0x00100402, 0x04000400, 0x00000002, 0x04100402, 0x00000000, 0x04100000, 0x04000402, 0x00100002, 0x04100400, 0x04000002, 0x04000000, 0x00000402,
    0x04000002, 0x00100402, 0x00100000, 0x04000000, 0x04100002, 0x00100400, 0x00000400, 0x00000002, 0x00100400, 0x04000402, 0x04100000, 0x00000400,
    0x00000402, 0x00000000, 0x00100002, 0x04100400, 0x04000400, 0x04100002, 0x04100402, 0x00100000, 0x04100002, 0x00000402, 0x00100000, 0x04000002,
    0x00100400, 0x04000400, 0x00000002, 0x04100000, 0x04000402, 0x00000000, 0x00000400, 0x00100002, 0x00000000, 0x04100002, 0x04100400, 0x00000400,
    0x04000000, 0x04100402, 0x00100402, 0x00100000, 0x04100402, 0x00000002, 0x04000400, 0x00100402, 0x00100002, 0x00100400, 0x04100000, 0x04000402,
    0x00000402, 0x04000000, 0x04000002, 0x04100400]

/-- resolved/crypt.py:200-217 `_SPtrans[4]`. -/
def sp4 : List Nat := [
    0x02000000, 0x00004000, 0x00000100, 0x02004108, 0x02004008, 0x02000100, 0x00004108, 0x02004000, 0x00004000, 0x00000008, 0x02000008, 0x00004100,
    0x02000108, 0x02004008, 0x02004100, 0x00000000, 0x00004100, 0x02000000, 0x00004008, 0x00000108, 0x02000100, 0x00004108, 0x00000000, 0x02000008,
    0x00000008, 0x02000108, 0x02004108, 0x00004008, 0x02004000, 0x00000100, 0x00000108, 0x02004100, 0x02004100, 0x02000108, 0x00004008, 0x02004000,
    0x00004000, 0x00000008, 0x02000008, 0x02000100, 0x02000000, 0x00004100, 0x02004108, 0x00000000, 0x00004108, 0x02000000, 0x00000100, 0x00004008,
    0x02000108, 0x00000100, 0x00000000, 0x02004108, 0x02004008, 0x02004100, 0x00000108, 0x00004000, 0x00004100, 0x02004008, 0x02000100, 0x00000108,
    0x00000008, 0x00004108, 0x02004000, 0x02000008]

/-- resolved/crypt.py:218-235 `_SPtrans[5]`. -/
def sp5 : List Nat := [
    0x20000010, 0x00080010, 0x00000000, 0x20080800, 0x00080010, 0x00000800, 0x20000810, 0x00080000, 0x00000810, 0x20080810, 0x00080800, 0x20000000,
    0x20000800, 0x20000010, 0x20080000, 0x00080810, 0x00080000, 0x20000810, 0x20080010, 0x00000000, 0x00000800, 0x00000010, 0x20080800, 0x20080010,
    0x20080810, 0x20080000, 0x20000000, 0x00000810, 0x00000010, 0x00080800, 0x00080810, 0x20000800, 0x00000810, 0x20000000, 0x20000800, 0x00080810,
    0x20080800, 0x00080010, 0x00000000, 0x20000800, 0x20000000, 0x00000800, 0x20080010, 0x00080000, 0x00080010, 0x20080810, 0x00080800, 0x00000010,
    0x20080810, 0x00080800, 0x00080000, 0x20000810, 0x20000010, 0x20080000, 0x00080810, 0x00000000, 0x00000800, 0x20000010, 0x20000810, 0x20080800,
    0x20080000, 0x00000810, 0x00000010, 0x20080010]

/-- resolved/crypt.py:236-253 `_SPtrans[6]`. -/
def sp6 : List Nat := [
    0x00001000, 0x00000080, 0x00400080, 0x00400001, 0x00401081, 0x00001001, 0x00001080, 0x00000000, 0x00400000, 0x00400081, 0x00000081, 0x00401000,
    0x00000001, 0x00401080, 0x00401000, 0x00000081, 0x00400081, 0x00001000, 0x00001001, 0x00401081, 0x00000000, 0x00400080, 0x00400001, 0x00001080,
    0x00401001, 0x00001081, 0x00401080, 0x00000001, 0x00001081, 0x00401001, 0x00000080, 0x00400000, 0x00001081, 0x00401000, 0x00401001, 0x00000081,
    0x00001000, 0x00000080, 0x00400000, 0x00401001, 0x00400081, 0x00001081, 0x00001080, 0x00000000, 0x00000080, 0x00400001, 0x00000001, 0x00400080,
    0x00000000, 0x00400081, 0x00400080, 0x00001080, 0x00000081, 0x00001000, 0x00401081, 0x00400000, 0x00401080, 0x00000001, 0x00001001, 0x00401081,
    0x00400001, 0x00401080, 0x00401000, 0x00001001]

/-- resolved/crypt.py:254-270 `_SPtrans[7]`. -/
def sp7 : List Nat := [
    0x08200020, 0x08208000, 0x00008020, 0x00000000, 0x08008000, 0x00200020, 0x08200000, 0x08208020, 0x00000020, 0x08000000, 0x00208000, 0x00008020,
    0x00208020, 0x08008020, 0x08000020, 0x08200000, 0x00008000, 0x00208020, 0x00200020, 0x08008000, 0x08208020, 0x08000020, 0x00000000, 0x00208000,
    0x08000000, 0x00200000, 0x08008020, 0x08200020, 0x00200000, 0x00008000, 0x08208000, 0x00000020, 0x00200000, 0x00008000, 0x08000020, 0x08208020,
    0x00008020, 0x08000000, 0x00000000, 0x00208000, 0x08200020, 0x08008020, 0x08008000, 0x00200020, 0x08208000, 0x00000020, 0x00200020, 0x08008000,
    0x08208020, 0x00200000, 0x08200000, 0x08000020, 0x00208000, 0x00008020, 0x08008020, 0x08200000, 0x00000020, 0x08208000, 0x00208020, 0x00000000,
    0x08000000, 0x08200020, 0x00008000, 0x00208020]

/-- resolved/crypt.py:274-291 `_skb[0]`. -/
def skb0 : List Nat := [
    0x00000000, 0x00000010, 0x20000000, 0x20000010, 0x00010000, 0x00010010, 0x20010000, 0x20010010, 0x00000800, 0x00000810, 0x20000800, 0x20000810,
    0x00010800, 0x00010810, 0x20010800, 0x20010810, 0x00000020, 0x00000030, 0x20000020, 0x20000030, 0x00010020, 0x00010030, 0x20010020, 0x20010030,
    0x00000820, 0x00000830, 0x20000820, 0x20000830, 0x00010820, 0x00010830, 0x20010820, 0x20010830, 0x00080000, 0x00080010, 0x20080000, 0x20080010,
    0x00090000, 0x00090010, 0x20090000, 0x20090010, 0x00080800, 0x00080810, 0x20080800, 0x20080810, 0x00090800, 0x00090810, 0x20090800, 0x20090810,
    0x00080020, 0x00080030, 0x20080020, 0x20080030, 0x00090020, 0x00090030, 0x20090020, 0x20090030, 0x00080820, 0x00080830, 0x20080820, 0x20080830,
    0x00090820, 0x00090830, 0x20090820, 0x20090830]

/-- resolved/crypt.py:292-309 `_skb[1]`. -/
def skb1 : List Nat := [
    0x00000000, 0x02000000, 0x00002000, 0x02002000, 0x00200000, 0x02200000, 0x00202000, 0x02202000, 0x00000004, 0x02000004, 0x00002004, 0x02002004,
    0x00200004, 0x02200004, 0x00202004, 0x02202004, 0x00000400, 0x02000400, 0x00002400, 0x02002400, 0x00200400, 0x02200400, 0x00202400, 0x02202400,
    0x00000404, 0x02000404, 0x00002404, 0x02002404, 0x00200404, 0x02200404, 0x00202404, 0x02202404, 0x10000000, 0x12000000, 0x10002000, 0x12002000,
    0x10200000, 0x12200000, 0x10202000, 0x12202000, 0x10000004, 0x12000004, 0x10002004, 0x12002004, 0x10200004, 0x12200004, 0x10202004, 0x12202004,
    0x10000400, 0x12000400, 0x10002400, 0x12002400, 0x10200400, 0x12200400, 0x10202400, 0x12202400, 0x10000404, 0x12000404, 0x10002404, 0x12002404,
    0x10200404, 0x12200404, 0x10202404, 0x12202404]

/-- resolved/crypt.py:310-327 `_skb[2]`. -/
def skb2 : List Nat := [
    0x00000000, 0x00000001, 0x00040000, 0x00040001, 0x01000000, 0x01000001, 0x01040000, 0x01040001, 0x00000002, 0x00000003, 0x00040002, 0x00040003,
    0x01000002, 0x01000003, 0x01040002, 0x01040003, 0x00000200, 0x00000201, 0x00040200, 0x00040201, 0x01000200, 0x01000201, 0x01040200, 0x01040201,
    0x00000202, 0x00000203, 0x00040202, 0x00040203, 0x01000202, 0x01000203, 0x01040202, 0x01040203, 0x08000000, 0x08000001, 0x08040000, 0x08040001,
    0x09000000, 0x09000001, 0x09040000, 0x09040001, 0x08000002, 0x08000003, 0x08040002, 0x08040003, 0x09000002, 0x09000003, 0x09040002, 0x09040003,
    0x08000200, 0x08000201, 0x08040200, 0x08040201, 0x09000200, 0x09000201, 0x09040200, 0x09040201, 0x08000202, 0x08000203, 0x08040202, 0x08040203,
    0x09000202, 0x09000203, 0x09040202, 0x09040203]

/-- resolved/crypt.py:328-345 `_skb[3]`. -/
def skb3 : List Nat := [
    0x00000000, 0x00100000, 0x00000100, 0x00100100, 0x00000008, 0x00100008, 0x00000108, 0x00100108, 0x00001000, 0x00101000, 0x00001100, 0x00101100,
    0x00001008, 0x00101008, 0x00001108, 0x00101108, 0x04000000, 0x04100000, 0x04000100, 0x04100100, 0x04000008, 0x04100008, 0x04000108, 0x04100108,
    0x04001000, 0x04101000, 0x04001100, 0x04101100, 0x04001008, 0x04101008, 0x04001108, 0x04101108, 0x00020000, 0x00120000, 0x00020100, 0x00120100,
    0x00020008, 0x00120008, 0x00020108, 0x00120108, 0x00021000, 0x00121000, 0x00021100, 0x00121100, 0x00021008, 0x00121008, 0x00021108, 0x00121108,
    0x04020000, 0x04120000, 0x04020100, 0x04120100, 0x04020008, 0x04120008, 0x04020108, 0x04120108, 0x04021000, 0x04121000, 0x04021100, 0x04121100,
    0x04021008, 0x04121008, 0x04021108, 0x04121108]

/-- resolved/crypt.py:346-363 `_skb[4]`. -/
def skb4 : List Nat := [
    0x00000000, 0x10000000, 0x00010000, 0x10010000, 0x00000004, 0x10000004, 0x00010004, 0x10010004, 0x20000000, 0x30000000, 0x20010000, 0x30010000,
    0x20000004, 0x30000004, 0x20010004, 0x30010004, 0x00100000, 0x10100000, 0x00110000, 0x10110000, 0x00100004, 0x10100004, 0x00110004, 0x10110004,
    0x20100000, 0x30100000, 0x20110000, 0x30110000, 0x20100004, 0x30100004, 0x20110004, 0x30110004, 0x00001000, 0x10001000, 0x00011000, 0x10011000,
    0x00001004, 0x10001004, 0x00011004, 0x10011004, 0x20001000, 0x30001000, 0x20011000, 0x30011000, 0x20001004, 0x30001004, 0x20011004, 0x30011004,
    0x00101000, 0x10101000, 0x00111000, 0x10111000, 0x00101004, 0x10101004, 0x00111004, 0x10111004, 0x20101000, 0x30101000, 0x20111000, 0x30111000,
    0x20101004, 0x30101004, 0x20111004, 0x30111004]

/-- resolved/crypt.py:364-381 `_skb[5]`. -/
def skb5 : List Nat := [
    0x00000000, 0x08000000, 0x00000008, 0x08000008, 0x00000400, 0x08000400, 0x00000408, 0x08000408, 0x00020000, 0x08020000, 0x00020008, 0x08020008,
    0x00020400, 0x08020400, 0x00020408, 0x08020408, 0x00000001, 0x08000001, 0x00000009, 0x08000009, 0x00000401, 0x08000401, 0x00000409, 0x08000409,
    0x00020001, 0x08020001, 0x00020009, 0x08020009, 0x00020401, 0x08020401, 0x00020409, 0x08020409, 0x02000000, 0x0A000000, 0x02000008, 0x0A000008,
    0x02000400, 0x0A000400, 0x02000408, 0x0A000408, 0x02020000, 0x0A020000, 0x02020008, 0x0A020008, 0x02020400, 0x0A020400, 0x02020408, 0x0A020408,
    0x02000001, 0x0A000001, 0x02000009, 0x0A000009, 0x02000401, 0x0A000401, 0x02000409, 0x0A000409, 0x02020001, 0x0A020001, 0x02020009, 0x0A020009,
    0x02020401, 0x0A020401, 0x02020409, 0x0A020409]

/-- resolved/crypt.py:382-399 `_skb[6]`. -/
def skb6 : List Nat := [
    0x00000000, 0x00000100, 0x00080000, 0x00080100, 0x01000000, 0x01000100, 0x01080000, 0x01080100, 0x00000010, 0x00000110, 0x00080010, 0x00080110,
    0x01000010, 0x01000110, 0x01080010, 0x01080110, 0x00200000, 0x00200100, 0x00280000, 0x00280100, 0x01200000, 0x01200100, 0x01280000, 0x01280100,
    0x00200010, 0x00200110, 0x00280010, 0x00280110, 0x01200010, 0x01200110, 0x01280010, 0x01280110, 0x00000200, 0x00000300, 0x00080200, 0x00080300,
    0x01000200, 0x01000300, 0x01080200, 0x01080300, 0x00000210, 0x00000310, 0x00080210, 0x00080310, 0x01000210, 0x01000310, 0x01080210, 0x01080310,
    0x00200200, 0x00200300, 0x00280200, 0x00280300, 0x01200200, 0x01200300, 0x01280200, 0x01280300, 0x00200210, 0x00200310, 0x00280210, 0x00280310,
    0x01200210, 0x01200310, 0x01280210, 0x01280310]

/-- resolved/crypt.py:400-416 `_skb[7]`. -/
def skb7 : List Nat := [
    0x00000000, 0x04000000, 0x00040000, 0x04040000, 0x00000002, 0x04000002, 0x00040002, 0x04040002, 0x00002000, 0x04002000, 0x00042000, 0x04042000,
    0x00002002, 0x04002002, 0x00042002, 0x04042002, 0x00000020, 0x04000020, 0x00040020, 0x04040020, 0x00000022, 0x04000022, 0x00040022, 0x04040022,
    0x00002020, 0x04002020, 0x00042020, 0x04042020, 0x00002022, 0x04002022, 0x00042022, 0x04042022, 0x00000800, 0x04000800, 0x00040800, 0x04040800,
    0x00000802, 0x04000802, 0x00040802, 0x04040802, 0x00002800, 0x04002800, 0x00042800, 0x04042800, 0x00002802, 0x04002802, 0x00042802, 0x04042802,
    0x00000820, 0x04000820, 0x00040820, 0x04040820, 0x00000822, 0x04000822, 0x00040822, 0x04040822, 0x00002820, 0x04002820, 0x00042820, 0x04042820,
    0x00002822, 0x04002822, 0x00042822, 0x04042822]

/-- resolved/crypt.py:421-438 `_con_salt`. -/
def conSalt : List Nat := [
    0xD2, 0xD3, 0xD4, 0xD5, 0xD6, 0xD7, 0xD8, 0xD9, 0xDA, 0xDB, 0xDC, 0xDD,
    0xDE, 0xDF, 0xE0, 0xE1, 0xE2, 0xE3, 0xE4, 0xE5, 0xE6, 0xE7, 0xE8, 0xE9,
    0xEA, 0xEB, 0xEC, 0xED, 0xEE, 0xEF, 0xF0, 0xF1, 0xF2, 0xF3, 0xF4, 0xF5,
    0xF6, 0xF7, 0xF8, 0xF9, 0xFA, 0xFB, 0xFC, 0xFD, 0xFE, 0xFF, 0x00, 0x01,
    0x02, 0x03, 0x04, 0x05, 0x06, 0x07, 0x08, 0x09, 0x0A, 0x0B, 0x05, 0x06,
    0x07, 0x08, 0x09, 0x0A, 0x0B, 0x0C, 0x0D, 0x0E, 0x0F, 0x10, 0x11, 0x12,
    0x13, 0x14, 0x15, 0x16, 0x17, 0x18, 0x19, 0x1A, 0x1B, 0x1C, 0x1D, 0x1E,
    0x1F, 0x20, 0x21, 0x22, 0x23, 0x24, 0x25, 0x20, 0x21, 0x22, 0x23, 0x24,
    0x25, 0x26, 0x27, 0x28, 0x29, 0x2A, 0x2B, 0x2C, 0x2D, 0x2E, 0x2F, 0x30,
    0x31, 0x32, 0x33, 0x34, 0x35, 0x36, 0x37, 0x38, 0x39, 0x3A, 0x3B, 0x3C,
    0x3D, 0x3E, 0x3F, 0x40, 0x41, 0x42, 0x43, 0x44]

/-- resolved/crypt.py:419 `_shifts2`. -/
def shifts2 : List Bool :=
  [false, false, true, true, true, true, true, true, false, true, true, true, true, true, true, false]

/-- resolved/crypt.py:440 `_cov_2char`. -/
def cov2char : List Char := "./0123456789ABCDEFGHIJKLMNOPQRSTUVWXYZabcdefghijklmnopqrstuvwxyz".toList

/-- `t[i]`. -/
def at_ (t : List Nat) (i : Nat) : Nat := t.getD i 0

/-- resolved/crypt.py:443-446 `_HPERM_OP`. -/
def hpermOp (a : Nat) : Nat :=
  let t := ((a <<< 18) ^^^ a) &&& 0xcccc0000
  a ^^^ t ^^^ ((t >>> 18) &&& 0x3fff)

/-- resolved/crypt.py:448-453 `_PERM_OP`. -/
def permOp (a b n m : Nat) : Nat × Nat :=
  let t := ((a >>> n) ^^^ b) &&& m
  (a ^^^ (t <<< n), b ^^^ t)

/-- Four bytes of `ii_struct.unpack` (460), without the sign. -/
def word (p : Bytes) (i : Nat) : Nat :=
  (p.getD i 0).toNat + 256 * (p.getD (i + 1) 0).toNat + 65536 * (p.getD (i + 2) 0).toNat + 16777216 * (p.getD (i + 3) 0).toNat

/-- resolved/crypt.py:460-474: `c` and `d` before the loop. -/
def startKey (password : Bytes) : Nat × Nat :=
  let c := (word password 0 &&& 0x7f7f7f7f) <<< 1
  let d := (word password 4 &&& 0x7f7f7f7f) <<< 1
  let (d, c) := permOp d c 4 0x0f0f0f0f
  let c := hpermOp c
  let d := hpermOp d
  let (d, c) := permOp d c 1 0x55555555
  let (c, d) := permOp c d 8 0x00ff00ff
  let (d, c) := permOp d c 1 0x55555555
  let d := ((d &&& 0x000000ff) <<< 16) ||| (d &&& 0x0000ff00) ||| ((d &&& 0x00ff0000) >>> 16) ||| ((c >>> 4) &&& 0x0f000000)
  (c &&& 0x0fffffff, d)

/-- resolved/crypt.py:483-491: the shifts of `c` and of `d`. -/
def rotate (two : Bool) (c : Nat) : Nat := (if two then (c >>> 2) ||| (c <<< 26) else (c >>> 1) ||| (c <<< 27)) &&& 0x0fffffff

/-- resolved/crypt.py:493-497 `s`. -/
def keyS (c : Nat) : Nat :=
  at_ skb0 (c &&& 0x3f) ||| at_ skb1 (((c >>> 6) &&& 0x03) ||| ((c >>> 7) &&& 0x3c)) ||| at_ skb2 (((c >>> 13) &&& 0x0f) ||| ((c >>> 14) &&& 0x30)) |||
    at_ skb3 (((c >>> 20) &&& 0x01) ||| ((c >>> 21) &&& 0x06) ||| ((c >>> 22) &&& 0x38))

/-- resolved/crypt.py:499-502 `t`. -/
def keyT (d : Nat) : Nat :=
  at_ skb4 (d &&& 0x3f) ||| at_ skb5 (((d >>> 7) &&& 0x03) ||| ((d >>> 8) &&& 0x3c)) ||| at_ skb6 ((d >>> 15) &&& 0x3f) |||
    at_ skb7 (((d >>> 21) &&& 0x0f) ||| ((d >>> 22) &&& 0x30))

/-- resolved/crypt.py:504-509: the two words of the key schedule. -/
def keyWords (c d : Nat) : Nat × Nat :=
  let s := keyS c
  let t := keyT d
  let k := ((t <<< 16) ||| (s &&& 0x0000ffff)) &&& 0xffffffff
  let s := (s >>> 16) ||| (t &&& 0xffff0000)
  let s := (s <<< 4) ||| ((s >>> 28) &&& 0x0f)
  (k, s &&& 0xffffffff)

/-- resolved/crypt.py:482-509: the loop. -/
def schedule (c d : Nat) : List Bool → List (Nat × Nat)
  | [] => []
  | two :: shifts => keyWords (rotate two c) (rotate two d) :: schedule (rotate two c) (rotate two d) shifts

/-- resolved/crypt.py:457-511 `_set_key`. -/
def setKey (password : Bytes) : List (Nat × Nat) := schedule (startKey password).1 (startKey password).2 shifts2

/-- resolved/crypt.py:525-529 `u` and `t` (before the rotation): `e` is the salt, `k` the word of the key schedule. -/
def mixed (e r k : Nat) : Nat :=
  let t := r ^^^ ((r >>> 16) &&& 0xffff)
  let u := t &&& e
  u ^^^ (u <<< 16) ^^^ r ^^^ k

/-- resolved/crypt.py:525-535: one round, `l, r = r, ...`. -/
def round (e0 e1 : Nat) (lr : Nat × Nat) (ks : Nat × Nat) : Nat × Nat :=
  let u := mixed e0 lr.2 ks.1
  let t := mixed e1 lr.2 ks.2
  let t := ((t >>> 4) &&& 0x0fffffff) ||| (t <<< 28)
  (lr.2, at_ sp1 (t &&& 0x3f) ^^^ at_ sp3 ((t >>> 8) &&& 0x3f) ^^^ at_ sp5 ((t >>> 16) &&& 0x3f) ^^^ at_ sp7 ((t >>> 24) &&& 0x3f) ^^^
    at_ sp0 (u &&& 0x3f) ^^^ at_ sp2 ((u >>> 8) &&& 0x3f) ^^^ at_ sp4 ((u >>> 16) &&& 0x3f) ^^^ at_ sp6 ((u >>> 24) &&& 0x3f) ^^^ lr.1)

/-- resolved/crypt.py:522-535: `n` times exchanging the halves and doing the rounds. -/
def rounds (ks : List (Nat × Nat)) (e0 e1 : Nat) : Nat → Nat × Nat → Nat × Nat
  | 0, lr => lr
  | n + 1, lr => rounds ks e0 e1 n (ks.foldl (round e0 e1) (lr.2, lr.1))

/-- resolved/crypt.py:537-544: `l` and `r` after the rounds. -/
def finish (lr : Nat × Nat) : Nat × Nat :=
  let l := ((lr.1 >>> 1) &&& 0x7fffffff) ||| ((lr.1 &&& 0x1) <<< 31)
  let r := ((lr.2 >>> 1) &&& 0x7fffffff) ||| ((lr.2 &&& 0x1) <<< 31)
  let (r, l) := permOp r l 1 0x55555555
  let (l, r) := permOp l r 8 0x00ff00ff
  let (r, l) := permOp r l 2 0x33333333
  let (l, r) := permOp l r 16 0x0000ffff
  let (r, l) := permOp r l 4 0x0f0f0f0f
  (l, r)

/-- resolved/crypt.py:514-546 `_body`. -/
def body (ks : List (Nat × Nat)) (e0 e1 : Nat) : Nat × Nat := finish (rounds ks e0 e1 25 (0, 0))

/-- resolved/crypt.py:601-607: the 6-bit numbers of the result. -/
def sixes (o1 o2 : Nat) : List Nat :=
  let t1 := ((o1 <<< 16) &&& 0xff0000) ||| (o1 &&& 0xff00) ||| ((o1 >>> 16) &&& 0xff)
  let t2 := ((o1 >>> 8) &&& 0xff0000) ||| ((o2 <<< 8) &&& 0xff00) ||| ((o2 >>> 8) &&& 0xff)
  let t3 := (o2 &&& 0xff0000) ||| ((o2 >>> 16) &&& 0xff00)
  [(t1 >>> 18) &&& 0x3f, (t1 >>> 12) &&& 0x3f, (t1 >>> 6) &&& 0x3f, t1 &&& 0x3f, (t2 >>> 18) &&& 0x3f, (t2 >>> 12) &&& 0x3f, (t2 >>> 6) &&& 0x3f, t2 &&& 0x3f,
    (t3 >>> 18) &&& 0x3f, (t3 >>> 12) &&& 0x3f, (t3 >>> 6) &&& 0x3f]

/-- resolved/crypt.py:588-592: the salt with what is missing. -/
def fullSalt : Bytes → Bytes
  | [] => [65, 65]
  | [a] => [a, 65]
  | salt => salt

/-- resolved/crypt.py:549-612 `crypt`. -/
def crypt (password salt : Bytes) : Bytes :=
  let salt := fullSalt salt
  let e0 := at_ conSalt ((salt.getD 0 0).toNat &&& 0x7f)
  let e1 := at_ conSalt ((salt.getD 1 0).toNat &&& 0x7f) <<< 4
  let o := body (setKey ((password ++ [0, 0, 0, 0, 0, 0, 0, 0]).take 8)) e0 e1
  salt.take 2 ++ (sixes o.1 o.2).map fun i => UInt8.ofNat (cov2char.getD i ' ').toNat

end PG.Crypt
