/-!
# Channel mapping tables

Transcription of `ChanMapTables` and `ChanOrderTables`
(src/internal_modules/roc_audio/channel_tables.cpp:53-end), with the channel positions of
channel_defs.h:86-142 and the masks of channel_defs.h:158-. A mask has bit `n` set for channel
position `n`. Coefficients are in units of 1e-7, exactly as written in the source (the code
stores them as single precision floats). The zero rules that fill the fixed size C array are
omitted.
-/

namespace Verif.ChannelMatrix

/-- `ChannelMapRule` (roc_audio/channel_tables.h): output channel, input channel, coefficient. -/
abbrev Rule := Nat × Nat × Nat

/-- `ChannelMapTable` (roc_audio/channel_tables.h): masks and rules. -/
structure Table where
  inMask : Nat
  outMask : Nat
  rules : List Rule
deriving DecidableEq, Repr

/-- Row `smpte` of `ChanOrderTables` (channel_tables.cpp:62-85). -/
def orderSmpte : List Nat := [0, 4, 2, 16, 7, 9, 1, 3, 8, 5, 6, 10, 11, 12, 13, 14, 15]

/-- Row `alsa` of `ChanOrderTables` (channel_tables.cpp:86-101). -/
def orderAlsa : List Nat := [0, 4, 7, 9, 2, 16, 5, 6, 8]

/-- Table `1.1-3c<>1.1` (channel_tables.cpp:108). -/
def tbl0 : Table := ⟨0x1000e, 0x10004,
  [(2, 1, 7071068), (2, 2, 10000000), (2, 3, 7071068), (16, 16, 10000000)]⟩

/-- Table `2.1<>1.1` (channel_tables.cpp:122). -/
def tbl1 : Table := ⟨0x10011, 0x10004,
  [(2, 0, 7071068), (2, 4, 7071068), (16, 16, 10000000)]⟩

/-- Table `3.1<>1.1` (channel_tables.cpp:135). -/
def tbl2 : Table := ⟨0x10015, 0x10004,
  [(2, 0, 7071068), (2, 2, 10000000), (2, 4, 7071068), (16, 16, 10000000)]⟩

/-- Table `3.1<>2.1` (channel_tables.cpp:148). -/
def tbl3 : Table := ⟨0x10015, 0x10011,
  [(0, 0, 10000000), (0, 2, 7071068), (4, 4, 10000000), (4, 2, 7071068), (16, 16,
    10000000)]⟩

/-- Table `3.1-3c<>1.1-3c` (channel_tables.cpp:164). -/
def tbl4 : Table := ⟨0x1001f, 0x1000e,
  [(1, 1, 10000000), (2, 0, 7071068), (2, 2, 10000000), (2, 4, 7071068), (3, 3,
    10000000), (16, 16, 10000000)]⟩

/-- Table `3.1-3c<>3.1` (channel_tables.cpp:181). -/
def tbl5 : Table := ⟨0x1001f, 0x10015,
  [(0, 0, 10000000), (0, 1, 7071068), (2, 1, 7071068), (2, 2, 10000000), (2, 3,
    7071068), (4, 4, 10000000), (4, 3, 7071068), (16, 16, 10000000)]⟩

/-- Table `4.1<>2.1` (channel_tables.cpp:201). -/
def tbl6 : Table := ⟨0x10291, 0x10011,
  [(0, 0, 10000000), (0, 7, 7071068), (4, 4, 10000000), (4, 9, 7071068), (16, 16,
    10000000)]⟩

/-- Table `4.1<>3.1` (channel_tables.cpp:216). -/
def tbl7 : Table := ⟨0x10291, 0x10015,
  [(0, 0, 10000000), (0, 7, 7071068), (2, 0, 7071068), (2, 4, 7071068), (2, 7, 5000000),
    (2, 9, 5000000), (4, 4, 10000000), (4, 9, 7071068), (16, 16, 10000000)]⟩

/-- Table `5.1<>3.1` (channel_tables.cpp:237). -/
def tbl8 : Table := ⟨0x10295, 0x10015,
  [(0, 0, 10000000), (0, 7, 7071068), (2, 2, 10000000), (4, 4, 10000000), (4, 9,
    7071068), (16, 16, 10000000)]⟩

/-- Table `5.1<>4.1` (channel_tables.cpp:254). -/
def tbl9 : Table := ⟨0x10295, 0x10291,
  [(0, 0, 10000000), (0, 2, 7071068), (4, 4, 10000000), (4, 2, 7071068), (7, 7,
    10000000), (9, 9, 10000000), (16, 16, 10000000)]⟩

/-- Table `5.1-3c<>3.1-3c` (channel_tables.cpp:274). -/
def tbl10 : Table := ⟨0x1029f, 0x1001f,
  [(0, 0, 10000000), (0, 7, 7071068), (1, 1, 10000000), (1, 7, 7071068), (2, 2,
    10000000), (3, 3, 10000000), (3, 9, 7071068), (4, 4, 10000000), (4, 9, 7071068),
    (16, 16, 10000000)]⟩

/-- Table `5.1-3c<>5.1` (channel_tables.cpp:297). -/
def tbl11 : Table := ⟨0x1029f, 0x10295,
  [(0, 0, 10000000), (0, 1, 7071068), (2, 1, 7071068), (2, 2, 10000000), (2, 3,
    7071068), (4, 4, 10000000), (4, 3, 7071068), (7, 7, 10000000), (9, 9, 10000000),
    (16, 16, 10000000)]⟩

/-- Table `5.1.2<>3.1` (channel_tables.cpp:321). -/
def tbl12 : Table := ⟨0x13295, 0x10015,
  [(0, 0, 10000000), (0, 7, 7071068), (0, 12, 7071068), (2, 2, 10000000), (4, 4,
    10000000), (4, 9, 7071068), (4, 13, 7071068), (16, 16, 10000000)]⟩

/-- Table `5.1.2<>4.1` (channel_tables.cpp:340). -/
def tbl13 : Table := ⟨0x13295, 0x10291,
  [(0, 0, 10000000), (0, 2, 7071068), (0, 12, 5000000), (4, 4, 10000000), (4, 2,
    7071068), (4, 13, 5000000), (7, 7, 10000000), (7, 12, 5000000), (9, 9, 10000000),
    (9, 13, 5000000), (16, 16, 10000000)]⟩

/-- Table `5.1.2<>5.1` (channel_tables.cpp:363). -/
def tbl14 : Table := ⟨0x13295, 0x10295,
  [(0, 0, 10000000), (0, 12, 5000000), (2, 2, 10000000), (4, 4, 10000000), (4, 13,
    5000000), (7, 7, 10000000), (7, 12, 5000000), (9, 9, 10000000), (9, 13, 5000000),
    (16, 16, 10000000)]⟩

/-- Table `5.1.2-3c<>3.1-3c` (channel_tables.cpp:387). -/
def tbl15 : Table := ⟨0x1329f, 0x1001f,
  [(0, 0, 10000000), (0, 7, 7071068), (0, 12, 7071068), (1, 1, 10000000), (1, 7,
    7071068), (1, 12, 7071068), (2, 2, 10000000), (3, 3, 10000000), (3, 9, 7071068), (3,
    13, 7071068), (4, 4, 10000000), (4, 9, 7071068), (4, 13, 7071068), (16, 16,
    10000000)]⟩

/-- Table `5.1.2-3c<>5.1` (channel_tables.cpp:414). -/
def tbl16 : Table := ⟨0x1329f, 0x10295,
  [(0, 0, 10000000), (0, 1, 7071068), (0, 12, 5000000), (2, 1, 7071068), (2, 2,
    10000000), (2, 3, 7071068), (4, 4, 10000000), (4, 3, 7071068), (4, 13, 5000000), (7,
    7, 10000000), (7, 12, 5000000), (9, 9, 10000000), (9, 13, 5000000), (16, 16,
    10000000)]⟩

/-- Table `5.1.2-3c<>5.1-3c` (channel_tables.cpp:441). -/
def tbl17 : Table := ⟨0x1329f, 0x1029f,
  [(0, 0, 10000000), (0, 12, 5000000), (1, 1, 10000000), (1, 12, 5000000), (2, 2,
    10000000), (3, 3, 10000000), (3, 13, 5000000), (4, 4, 10000000), (4, 13, 5000000),
    (7, 7, 10000000), (7, 12, 5000000), (9, 9, 10000000), (9, 13, 5000000), (16, 16,
    10000000)]⟩

/-- Table `5.1.2-3c<>5.1.2` (channel_tables.cpp:470). -/
def tbl18 : Table := ⟨0x1329f, 0x13295,
  [(0, 0, 10000000), (0, 1, 7071068), (2, 1, 7071068), (2, 2, 10000000), (2, 3,
    7071068), (4, 4, 10000000), (4, 3, 7071068), (7, 7, 10000000), (9, 9, 10000000),
    (12, 12, 10000000), (13, 13, 10000000), (16, 16, 10000000)]⟩

/-- Table `5.1.4<>3.1` (channel_tables.cpp:498). -/
def tbl19 : Table := ⟨0x1ce95, 0x10015,
  [(0, 0, 10000000), (0, 7, 7071068), (0, 10, 7071068), (0, 14, 5000000), (2, 2,
    10000000), (4, 4, 10000000), (4, 9, 7071068), (4, 11, 7071068), (4, 15, 5000000),
    (16, 16, 10000000)]⟩

/-- Table `5.1.4<>4.1` (channel_tables.cpp:519). -/
def tbl20 : Table := ⟨0x1ce95, 0x10291,
  [(0, 0, 10000000), (0, 2, 7071068), (0, 10, 7071068), (4, 4, 10000000), (4, 2,
    7071068), (4, 11, 7071068), (7, 7, 10000000), (7, 14, 7071068), (9, 9, 10000000),
    (9, 15, 7071068), (16, 16, 10000000)]⟩

/-- Table `5.1.4<>5.1` (channel_tables.cpp:542). -/
def tbl21 : Table := ⟨0x1ce95, 0x10295,
  [(0, 0, 10000000), (0, 10, 7071068), (2, 2, 10000000), (4, 4, 10000000), (4, 11,
    7071068), (7, 7, 10000000), (7, 14, 7071068), (9, 9, 10000000), (9, 15, 7071068),
    (16, 16, 10000000)]⟩

/-- Table `5.1.4<>5.1.2` (channel_tables.cpp:565). -/
def tbl22 : Table := ⟨0x1ce95, 0x13295,
  [(0, 0, 10000000), (2, 2, 10000000), (4, 4, 10000000), (7, 7, 10000000), (9, 9,
    10000000), (12, 10, 7071068), (12, 14, 7071068), (13, 11, 7071068), (13, 15,
    7071068), (16, 16, 10000000)]⟩

/-- Table `5.1.4-3c<>3.1-3c` (channel_tables.cpp:591). -/
def tbl23 : Table := ⟨0x1ce9f, 0x1001f,
  [(0, 0, 10000000), (0, 7, 7071068), (0, 10, 7071068), (0, 14, 5000000), (1, 1,
    10000000), (1, 7, 7071068), (1, 10, 7071068), (1, 14, 5000000), (2, 2, 10000000),
    (3, 3, 10000000), (3, 9, 7071068), (3, 11, 7071068), (3, 15, 5000000), (4, 4,
    10000000), (4, 9, 7071068), (4, 11, 7071068), (4, 15, 5000000), (16, 16, 10000000)]⟩

/-- Table `5.1.4-3c<>5.1` (channel_tables.cpp:622). -/
def tbl24 : Table := ⟨0x1ce9f, 0x10295,
  [(0, 0, 10000000), (0, 1, 7071068), (0, 10, 7071068), (2, 1, 7071068), (2, 2,
    10000000), (2, 3, 7071068), (4, 4, 10000000), (4, 3, 7071068), (4, 11, 7071068), (7,
    7, 10000000), (7, 14, 7071068), (9, 9, 10000000), (9, 15, 7071068), (16, 16,
    10000000)]⟩

/-- Table `5.1.4-3c<>5.1-3c` (channel_tables.cpp:649). -/
def tbl25 : Table := ⟨0x1ce9f, 0x1029f,
  [(0, 0, 10000000), (0, 10, 7071068), (1, 1, 10000000), (1, 10, 7071068), (2, 2,
    10000000), (3, 3, 10000000), (3, 11, 7071068), (4, 4, 10000000), (4, 11, 7071068),
    (7, 7, 10000000), (7, 14, 7071068), (9, 9, 10000000), (9, 15, 7071068), (16, 16,
    10000000)]⟩

/-- Table `5.1.4-3c<>5.1.2-3c` (channel_tables.cpp:678). -/
def tbl26 : Table := ⟨0x1ce9f, 0x1329f,
  [(0, 0, 10000000), (1, 1, 10000000), (2, 2, 10000000), (3, 3, 10000000), (4, 4,
    10000000), (7, 7, 10000000), (9, 9, 10000000), (12, 10, 7071068), (12, 14, 7071068),
    (13, 11, 7071068), (13, 15, 7071068), (16, 16, 10000000)]⟩

/-- Table `5.1.4-3c<>5.1.4` (channel_tables.cpp:707). -/
def tbl27 : Table := ⟨0x1ce9f, 0x1ce95,
  [(0, 0, 10000000), (0, 1, 7071068), (2, 1, 7071068), (2, 2, 10000000), (2, 3,
    7071068), (4, 4, 10000000), (4, 3, 7071068), (7, 7, 10000000), (9, 9, 10000000),
    (10, 10, 10000000), (11, 11, 10000000), (14, 14, 10000000), (15, 15, 10000000), (16,
    16, 10000000)]⟩

/-- Table `6.1<>4.1` (channel_tables.cpp:739). -/
def tbl28 : Table := ⟨0x10395, 0x10291,
  [(0, 0, 10000000), (0, 2, 7071068), (4, 4, 10000000), (4, 2, 7071068), (7, 7,
    10000000), (7, 8, 7071068), (9, 9, 10000000), (9, 8, 7071068), (16, 16, 10000000)]⟩

/-- Table `6.1<>5.1` (channel_tables.cpp:760). -/
def tbl29 : Table := ⟨0x10395, 0x10295,
  [(0, 0, 10000000), (2, 2, 10000000), (4, 4, 10000000), (7, 7, 10000000), (7, 8,
    7071068), (9, 9, 10000000), (9, 8, 7071068), (16, 16, 10000000)]⟩

/-- Table `6.1<>5.1.2` (channel_tables.cpp:781). -/
def tbl30 : Table := ⟨0x10395, 0x13295,
  [(0, 0, 10000000), (2, 2, 10000000), (4, 4, 10000000), (7, 7, 10000000), (7, 8,
    7071068), (9, 9, 10000000), (9, 8, 7071068), (12, 0, 10000000), (12, 7, 10000000),
    (12, 8, 7071068), (13, 4, 10000000), (13, 9, 10000000), (13, 8, 7071068), (16, 16,
    10000000)]⟩

/-- Table `6.1<>5.1.4` (channel_tables.cpp:810). -/
def tbl31 : Table := ⟨0x10395, 0x1ce95,
  [(0, 0, 10000000), (2, 2, 10000000), (4, 4, 10000000), (7, 7, 10000000), (7, 8,
    7071068), (9, 9, 10000000), (9, 8, 7071068), (10, 0, 10000000), (11, 4, 10000000),
    (14, 7, 10000000), (14, 8, 7071068), (15, 9, 10000000), (15, 8, 7071068), (16, 16,
    10000000)]⟩

/-- Table `6.1-3c<>5.1-3c` (channel_tables.cpp:842). -/
def tbl32 : Table := ⟨0x1039f, 0x1029f,
  [(0, 0, 10000000), (1, 1, 10000000), (2, 2, 10000000), (3, 3, 10000000), (4, 4,
    10000000), (7, 7, 10000000), (7, 8, 7071068), (9, 9, 10000000), (9, 8, 7071068),
    (16, 16, 10000000)]⟩

/-- Table `6.1-3c<>5.1.2-3c` (channel_tables.cpp:867). -/
def tbl33 : Table := ⟨0x1039f, 0x1329f,
  [(0, 0, 10000000), (1, 1, 10000000), (2, 2, 10000000), (3, 3, 10000000), (4, 4,
    10000000), (7, 7, 10000000), (7, 8, 7071068), (9, 9, 10000000), (9, 8, 7071068),
    (12, 0, 10000000), (12, 7, 10000000), (12, 8, 7071068), (13, 4, 10000000), (13, 9,
    10000000), (13, 8, 7071068), (16, 16, 10000000)]⟩

/-- Table `6.1-3c<>5.1.4-3c` (channel_tables.cpp:900). -/
def tbl34 : Table := ⟨0x1039f, 0x1ce9f,
  [(0, 0, 10000000), (1, 1, 10000000), (2, 2, 10000000), (3, 3, 10000000), (4, 4,
    10000000), (7, 7, 10000000), (7, 8, 7071068), (9, 9, 10000000), (9, 8, 7071068),
    (10, 0, 10000000), (11, 4, 10000000), (14, 7, 10000000), (14, 8, 7071068), (15, 9,
    10000000), (15, 8, 7071068), (16, 16, 10000000)]⟩

/-- Table `6.1-3c<>6.1` (channel_tables.cpp:935). -/
def tbl35 : Table := ⟨0x1039f, 0x10395,
  [(0, 0, 10000000), (0, 1, 7071068), (2, 1, 7071068), (2, 2, 10000000), (2, 3,
    7071068), (4, 4, 10000000), (4, 3, 7071068), (7, 7, 10000000), (8, 8, 10000000), (9,
    9, 10000000), (16, 16, 10000000)]⟩

/-- Table `7.1<>5.1` (channel_tables.cpp:961). -/
def tbl36 : Table := ⟨0x102f5, 0x10295,
  [(0, 0, 10000000), (2, 2, 10000000), (4, 4, 10000000), (7, 5, 10000000), (7, 7,
    10000000), (9, 6, 10000000), (9, 9, 10000000), (16, 16, 10000000)]⟩

/-- Table `7.1<>5.1.2` (channel_tables.cpp:982). -/
def tbl37 : Table := ⟨0x102f5, 0x13295,
  [(0, 0, 10000000), (2, 2, 10000000), (4, 4, 10000000), (7, 5, 10000000), (7, 7,
    10000000), (9, 6, 10000000), (9, 9, 10000000), (12, 0, 10000000), (12, 7, 10000000),
    (13, 4, 10000000), (13, 9, 10000000), (16, 16, 10000000)]⟩

/-- Table `7.1<>5.1.4` (channel_tables.cpp:1009). -/
def tbl38 : Table := ⟨0x102f5, 0x1ce95,
  [(0, 0, 10000000), (2, 2, 10000000), (4, 4, 10000000), (7, 5, 10000000), (7, 7,
    10000000), (9, 6, 10000000), (9, 9, 10000000), (10, 0, 10000000), (11, 4, 10000000),
    (14, 7, 10000000), (15, 9, 10000000), (16, 16, 10000000)]⟩

/-- Table `7.1<>6.1` (channel_tables.cpp:1038). -/
def tbl39 : Table := ⟨0x102f5, 0x10395,
  [(0, 0, 10000000), (2, 2, 10000000), (4, 4, 10000000), (7, 5, 10000000), (7, 7,
    10000000), (8, 7, 10000000), (8, 9, 10000000), (8, 5, 10000000), (8, 6, 10000000),
    (9, 6, 10000000), (9, 9, 10000000), (16, 16, 10000000)]⟩

/-- Table `7.1-3c<>5.1-3c` (channel_tables.cpp:1065). -/
def tbl40 : Table := ⟨0x102ff, 0x1029f,
  [(0, 0, 10000000), (1, 1, 10000000), (2, 2, 10000000), (3, 3, 10000000), (4, 4,
    10000000), (7, 5, 10000000), (7, 7, 10000000), (9, 6, 10000000), (9, 9, 10000000),
    (16, 16, 10000000)]⟩

/-- Table `7.1-3c<>5.1.2-3c` (channel_tables.cpp:1090). -/
def tbl41 : Table := ⟨0x102ff, 0x1329f,
  [(0, 0, 10000000), (1, 1, 10000000), (2, 2, 10000000), (3, 3, 10000000), (4, 4,
    10000000), (7, 5, 10000000), (7, 7, 10000000), (9, 6, 10000000), (9, 9, 10000000),
    (12, 0, 10000000), (12, 7, 10000000), (13, 4, 10000000), (13, 9, 10000000), (16, 16,
    10000000)]⟩

/-- Table `7.1-3c<>5.1.4-3c` (channel_tables.cpp:1121). -/
def tbl42 : Table := ⟨0x102ff, 0x1ce9f,
  [(0, 0, 10000000), (1, 1, 10000000), (2, 2, 10000000), (3, 3, 10000000), (4, 4,
    10000000), (7, 5, 10000000), (7, 7, 10000000), (9, 6, 10000000), (9, 9, 10000000),
    (10, 0, 10000000), (11, 4, 10000000), (14, 7, 10000000), (15, 9, 10000000), (16, 16,
    10000000)]⟩

/-- Table `7.1-3c<>6.1-3c` (channel_tables.cpp:1154). -/
def tbl43 : Table := ⟨0x102ff, 0x1039f,
  [(0, 0, 10000000), (1, 1, 10000000), (2, 2, 10000000), (3, 3, 10000000), (4, 4,
    10000000), (7, 5, 10000000), (7, 7, 10000000), (8, 7, 10000000), (8, 9, 10000000),
    (8, 5, 10000000), (8, 6, 10000000), (9, 6, 10000000), (9, 9, 10000000), (16, 16,
    10000000)]⟩

/-- Table `7.1-3c<>7.1` (channel_tables.cpp:1184). -/
def tbl44 : Table := ⟨0x102ff, 0x102f5,
  [(0, 0, 10000000), (0, 1, 7071068), (2, 1, 7071068), (2, 2, 10000000), (2, 3,
    7071068), (4, 4, 10000000), (4, 3, 7071068), (5, 5, 10000000), (6, 6, 10000000), (7,
    7, 10000000), (9, 9, 10000000), (16, 16, 10000000)]⟩

/-- Table `7.1.2<>5.1` (channel_tables.cpp:1212). -/
def tbl45 : Table := ⟨0x132f5, 0x10295,
  [(0, 0, 10000000), (0, 12, 5000000), (2, 2, 10000000), (4, 4, 10000000), (4, 13,
    5000000), (7, 5, 10000000), (7, 7, 10000000), (7, 12, 5000000), (9, 6, 10000000),
    (9, 9, 10000000), (9, 13, 5000000), (16, 16, 10000000)]⟩

/-- Table `7.1.2<>5.1.2` (channel_tables.cpp:1237). -/
def tbl46 : Table := ⟨0x132f5, 0x13295,
  [(0, 0, 10000000), (2, 2, 10000000), (4, 4, 10000000), (7, 5, 10000000), (7, 7,
    10000000), (9, 6, 10000000), (9, 9, 10000000), (12, 12, 10000000), (13, 13,
    10000000), (16, 16, 10000000)]⟩

/-- Table `7.1.2<>5.1.4` (channel_tables.cpp:1262). -/
def tbl47 : Table := ⟨0x132f5, 0x1ce95,
  [(0, 0, 10000000), (2, 2, 10000000), (4, 4, 10000000), (7, 5, 10000000), (7, 7,
    10000000), (9, 6, 10000000), (9, 9, 10000000), (10, 12, 7071068), (11, 13, 7071068),
    (14, 12, 7071068), (15, 13, 7071068), (16, 16, 10000000)]⟩

/-- Table `7.1.2<>6.1` (channel_tables.cpp:1291). -/
def tbl48 : Table := ⟨0x132f5, 0x10395,
  [(0, 0, 10000000), (0, 12, 5000000), (2, 2, 10000000), (4, 4, 10000000), (4, 13,
    5000000), (7, 5, 10000000), (7, 7, 10000000), (7, 12, 5000000), (8, 7, 10000000),
    (8, 9, 10000000), (8, 5, 10000000), (8, 6, 10000000), (8, 12, 7071068), (8, 13,
    7071068), (9, 6, 10000000), (9, 9, 10000000), (9, 13, 5000000), (16, 16, 10000000)]⟩

/-- Table `7.1.2<>7.1` (channel_tables.cpp:1323). -/
def tbl49 : Table := ⟨0x132f5, 0x102f5,
  [(0, 0, 10000000), (2, 2, 10000000), (4, 4, 10000000), (5, 5, 10000000), (5, 12,
    7071068), (6, 6, 10000000), (6, 13, 7071068), (7, 7, 10000000), (9, 9, 10000000),
    (16, 16, 10000000)]⟩

/-- Table `7.1.2-3c<>5.1-3c` (channel_tables.cpp:1349). -/
def tbl50 : Table := ⟨0x132ff, 0x1029f,
  [(0, 0, 10000000), (0, 12, 5000000), (1, 1, 10000000), (1, 12, 5000000), (2, 2,
    10000000), (3, 3, 10000000), (3, 13, 5000000), (4, 4, 10000000), (4, 13, 5000000),
    (7, 5, 10000000), (7, 7, 10000000), (7, 12, 5000000), (9, 6, 10000000), (9, 9,
    10000000), (9, 13, 5000000), (16, 16, 10000000)]⟩

/-- Table `7.1.2-3c<>5.1.2-3c` (channel_tables.cpp:1380). -/
def tbl51 : Table := ⟨0x132ff, 0x1329f,
  [(0, 0, 10000000), (1, 1, 10000000), (2, 2, 10000000), (3, 3, 10000000), (4, 4,
    10000000), (7, 5, 10000000), (7, 7, 10000000), (9, 6, 10000000), (9, 9, 10000000),
    (12, 12, 10000000), (13, 13, 10000000), (16, 16, 10000000)]⟩

/-- Table `7.1.2-3c<>5.1.4-3c` (channel_tables.cpp:1409). -/
def tbl52 : Table := ⟨0x132ff, 0x1ce9f,
  [(0, 0, 10000000), (1, 1, 10000000), (2, 2, 10000000), (3, 3, 10000000), (4, 4,
    10000000), (7, 5, 10000000), (7, 7, 10000000), (9, 6, 10000000), (9, 9, 10000000),
    (10, 12, 7071068), (11, 13, 7071068), (14, 12, 7071068), (15, 13, 7071068), (16, 16,
    10000000)]⟩

/-- Table `7.1.2-3c<>6.1-3c` (channel_tables.cpp:1442). -/
def tbl53 : Table := ⟨0x132ff, 0x1039f,
  [(0, 0, 10000000), (0, 12, 5000000), (1, 1, 10000000), (1, 12, 5000000), (2, 2,
    10000000), (3, 3, 10000000), (3, 13, 5000000), (4, 4, 10000000), (4, 13, 5000000),
    (7, 5, 10000000), (7, 7, 10000000), (7, 12, 5000000), (8, 7, 10000000), (8, 9,
    10000000), (8, 5, 10000000), (8, 6, 10000000), (8, 12, 7071068), (8, 13, 7071068),
    (9, 6, 10000000), (9, 9, 10000000), (9, 13, 5000000), (16, 16, 10000000)]⟩

/-- Table `7.1.2-3c<>7.1` (channel_tables.cpp:1480). -/
def tbl54 : Table := ⟨0x132ff, 0x102f5,
  [(0, 0, 10000000), (0, 1, 7071068), (2, 1, 7071068), (2, 2, 10000000), (2, 3,
    7071068), (4, 4, 10000000), (4, 3, 7071068), (5, 5, 10000000), (5, 12, 7071068), (6,
    6, 10000000), (6, 13, 7071068), (7, 7, 10000000), (9, 9, 10000000), (16, 16,
    10000000)]⟩

/-- Table `7.1.2-3c<>7.1-3c` (channel_tables.cpp:1509). -/
def tbl55 : Table := ⟨0x132ff, 0x102ff,
  [(0, 0, 10000000), (1, 1, 10000000), (2, 2, 10000000), (3, 3, 10000000), (4, 4,
    10000000), (5, 5, 10000000), (5, 12, 7071068), (6, 6, 10000000), (6, 13, 7071068),
    (7, 7, 10000000), (9, 9, 10000000), (16, 16, 10000000)]⟩

/-- Table `7.1.2-3c<>7.1.2` (channel_tables.cpp:1538). -/
def tbl56 : Table := ⟨0x132ff, 0x132f5,
  [(0, 0, 10000000), (0, 1, 7071068), (2, 1, 7071068), (2, 2, 10000000), (2, 3,
    7071068), (4, 4, 10000000), (4, 3, 7071068), (5, 5, 10000000), (6, 6, 10000000), (7,
    7, 10000000), (9, 9, 10000000), (12, 12, 10000000), (13, 13, 10000000), (16, 16,
    10000000)]⟩

/-- Table `7.1.4<>5.1` (channel_tables.cpp:1570). -/
def tbl57 : Table := ⟨0x1cef5, 0x10295,
  [(0, 0, 10000000), (0, 10, 7071068), (2, 2, 10000000), (4, 4, 10000000), (4, 11,
    7071068), (7, 5, 10000000), (7, 7, 10000000), (7, 14, 7071068), (9, 6, 10000000),
    (9, 9, 10000000), (9, 15, 7071068), (16, 16, 10000000)]⟩

/-- Table `7.1.4<>5.1.2` (channel_tables.cpp:1595). -/
def tbl58 : Table := ⟨0x1cef5, 0x13295,
  [(0, 0, 10000000), (2, 2, 10000000), (4, 4, 10000000), (7, 5, 10000000), (7, 7,
    10000000), (9, 6, 10000000), (9, 9, 10000000), (12, 10, 7071068), (12, 14, 7071068),
    (13, 11, 7071068), (13, 15, 7071068), (16, 16, 10000000)]⟩

/-- Table `7.1.4<>5.1.4` (channel_tables.cpp:1622). -/
def tbl59 : Table := ⟨0x1cef5, 0x1ce95,
  [(0, 0, 10000000), (2, 2, 10000000), (4, 4, 10000000), (7, 5, 10000000), (7, 7,
    10000000), (9, 6, 10000000), (9, 9, 10000000), (10, 10, 10000000), (11, 11,
    10000000), (14, 14, 10000000), (15, 15, 10000000), (16, 16, 10000000)]⟩

/-- Table `7.1.4<>6.1` (channel_tables.cpp:1651). -/
def tbl60 : Table := ⟨0x1cef5, 0x10395,
  [(0, 0, 10000000), (0, 10, 7071068), (2, 2, 10000000), (4, 4, 10000000), (4, 11,
    7071068), (7, 5, 10000000), (7, 7, 10000000), (7, 14, 7071068), (8, 7, 10000000),
    (8, 9, 10000000), (8, 5, 10000000), (8, 6, 10000000), (8, 14, 7071068), (8, 15,
    7071068), (9, 6, 10000000), (9, 9, 10000000), (9, 15, 7071068), (16, 16, 10000000)]⟩

/-- Table `7.1.4<>7.1` (channel_tables.cpp:1683). -/
def tbl61 : Table := ⟨0x1cef5, 0x102f5,
  [(0, 0, 10000000), (0, 10, 7071068), (2, 2, 10000000), (4, 4, 10000000), (4, 11,
    7071068), (5, 5, 10000000), (6, 6, 10000000), (7, 7, 10000000), (7, 14, 7071068),
    (9, 9, 10000000), (9, 15, 7071068), (16, 16, 10000000)]⟩

/-- Table `7.1.4<>7.1.2` (channel_tables.cpp:1710). -/
def tbl62 : Table := ⟨0x1cef5, 0x132f5,
  [(0, 0, 10000000), (2, 2, 10000000), (4, 4, 10000000), (5, 5, 10000000), (6, 6,
    10000000), (7, 7, 10000000), (9, 9, 10000000), (12, 10, 7071068), (12, 14, 7071068),
    (13, 11, 7071068), (13, 15, 7071068), (16, 16, 10000000)]⟩

/-- Table `7.1.4-3c<>5.1-3c` (channel_tables.cpp:1740). -/
def tbl63 : Table := ⟨0x1ceff, 0x1029f,
  [(0, 0, 10000000), (0, 10, 7071068), (1, 1, 10000000), (1, 10, 7071068), (2, 2,
    10000000), (3, 3, 10000000), (3, 11, 7071068), (4, 4, 10000000), (4, 11, 7071068),
    (7, 5, 10000000), (7, 7, 10000000), (7, 14, 7071068), (9, 6, 10000000), (9, 9,
    10000000), (9, 15, 7071068), (16, 16, 10000000)]⟩

/-- Table `7.1.4-3c<>5.1.2-3c` (channel_tables.cpp:1771). -/
def tbl64 : Table := ⟨0x1ceff, 0x1329f,
  [(0, 0, 10000000), (1, 1, 10000000), (2, 2, 10000000), (3, 3, 10000000), (4, 4,
    10000000), (7, 5, 10000000), (7, 7, 10000000), (9, 6, 10000000), (9, 9, 10000000),
    (12, 10, 7071068), (12, 14, 7071068), (13, 11, 7071068), (13, 15, 7071068), (16, 16,
    10000000)]⟩

/-- Table `7.1.4-3c<>5.1.4-3c` (channel_tables.cpp:1802). -/
def tbl65 : Table := ⟨0x1ceff, 0x1ce9f,
  [(0, 0, 10000000), (1, 1, 10000000), (2, 2, 10000000), (3, 3, 10000000), (4, 4,
    10000000), (7, 5, 10000000), (7, 7, 10000000), (9, 6, 10000000), (9, 9, 10000000),
    (10, 10, 10000000), (11, 11, 10000000), (14, 14, 10000000), (15, 15, 10000000), (16,
    16, 10000000)]⟩

/-- Table `7.1.4-3c<>6.1-3c` (channel_tables.cpp:1835). -/
def tbl66 : Table := ⟨0x1ceff, 0x1039f,
  [(0, 0, 10000000), (0, 10, 7071068), (1, 1, 10000000), (1, 10, 7071068), (2, 2,
    10000000), (3, 3, 10000000), (3, 11, 7071068), (4, 4, 10000000), (4, 11, 7071068),
    (7, 5, 10000000), (7, 7, 10000000), (7, 14, 7071068), (8, 7, 10000000), (8, 9,
    10000000), (8, 5, 10000000), (8, 6, 10000000), (8, 14, 7071068), (8, 15, 7071068),
    (9, 6, 10000000), (9, 9, 10000000), (9, 15, 7071068), (16, 16, 10000000)]⟩

/-- Table `7.1.4-3c<>7.1` (channel_tables.cpp:1873). -/
def tbl67 : Table := ⟨0x1ceff, 0x102f5,
  [(0, 0, 10000000), (0, 1, 7071068), (0, 10, 7071068), (2, 1, 7071068), (2, 2,
    10000000), (2, 3, 7071068), (4, 4, 10000000), (4, 3, 7071068), (4, 11, 7071068), (5,
    5, 10000000), (6, 6, 10000000), (7, 7, 10000000), (7, 14, 7071068), (9, 9,
    10000000), (9, 15, 7071068), (16, 16, 10000000)]⟩

/-- Table `7.1.4-3c<>7.1-3c` (channel_tables.cpp:1904). -/
def tbl68 : Table := ⟨0x1ceff, 0x102ff,
  [(0, 0, 10000000), (0, 10, 7071068), (1, 1, 10000000), (1, 10, 7071068), (2, 2,
    10000000), (3, 3, 10000000), (3, 11, 7071068), (4, 4, 10000000), (4, 11, 7071068),
    (5, 5, 10000000), (6, 6, 10000000), (7, 7, 10000000), (7, 14, 7071068), (9, 9,
    10000000), (9, 15, 7071068), (16, 16, 10000000)]⟩

/-- Table `7.1.4-3c<>7.1.2-3c` (channel_tables.cpp:1937). -/
def tbl69 : Table := ⟨0x1ceff, 0x132ff,
  [(0, 0, 10000000), (1, 1, 10000000), (2, 2, 10000000), (3, 3, 10000000), (4, 4,
    10000000), (5, 5, 10000000), (6, 6, 10000000), (7, 7, 10000000), (9, 9, 10000000),
    (12, 10, 7071068), (12, 14, 7071068), (13, 11, 7071068), (13, 15, 7071068), (16, 16,
    10000000)]⟩

/-- Table `7.1.4-3c<>7.1.4` (channel_tables.cpp:1970). -/
def tbl70 : Table := ⟨0x1ceff, 0x1cef5,
  [(0, 0, 10000000), (0, 1, 7071068), (2, 1, 7071068), (2, 2, 10000000), (2, 3,
    7071068), (4, 4, 10000000), (4, 3, 7071068), (5, 5, 10000000), (6, 6, 10000000), (7,
    7, 10000000), (9, 9, 10000000), (10, 10, 10000000), (11, 11, 10000000), (14, 14,
    10000000), (15, 15, 10000000), (16, 16, 10000000)]⟩

/-- `ChanMapTables` (channel_tables.cpp:105-end), 71 entries in order. -/
def tables : List Table :=
  [tbl0, tbl1, tbl2, tbl3, tbl4, tbl5, tbl6, tbl7, tbl8, tbl9, tbl10, tbl11, tbl12, tbl13,
   tbl14, tbl15, tbl16, tbl17, tbl18, tbl19, tbl20, tbl21, tbl22, tbl23, tbl24, tbl25,
   tbl26, tbl27, tbl28, tbl29, tbl30, tbl31, tbl32, tbl33, tbl34, tbl35, tbl36, tbl37,
   tbl38, tbl39, tbl40, tbl41, tbl42, tbl43, tbl44, tbl45, tbl46, tbl47, tbl48, tbl49,
   tbl50, tbl51, tbl52, tbl53, tbl54, tbl55, tbl56, tbl57, tbl58, tbl59, tbl60, tbl61,
   tbl62, tbl63, tbl64, tbl65, tbl66, tbl67, tbl68, tbl69, tbl70]

end Verif.ChannelMatrix
