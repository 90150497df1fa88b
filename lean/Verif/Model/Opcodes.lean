/-!
# opcodes.h / opcodes.cc

The two opcode tables are transcribed mechanically from opcodes.cc (the transcription script keeps
row order, row tag and all fifteen columns).
-/

namespace Verif

/-- `cpu` (opcodes.h:9-13). -/
inductive Cpu where
  | c6502
  | c65C02
deriving DecidableEq, Repr, Inhabited

/-- `addressing_modes` (opcodes.h:144-162), in declaration order. -/
inductive Mode where
  | i | I | zp | zpi | zpx | zpy | izx | izy | a | aix | ax | ay | ind | r | A
deriving DecidableEq, Repr, Inhabited

namespace Mode

/-- Numeric value of an addressing mode enumerator (opcodes.h:144-162). -/
def toInt : Mode → Int
  | i => 0 | I => 1 | zp => 2 | zpi => 3 | zpx => 4 | zpy => 5 | izx => 6 | izy => 7
  | a => 8 | aix => 9 | ax => 10 | ay => 11 | ind => 12 | r => 13 | A => 14

/-- All addressing modes. -/
def all : List Mode := [i, I, zp, zpi, zpx, zpy, izx, izy, a, aix, ax, ay, ind, r, A]

end Mode

/-- `max_addressing_mode` (opcodes.h:161). -/
def maxAddressingMode : Int := 15

/-- `_maxOpcode` (opcodes.h:141). -/
def maxOpcode : Int := 118

/-- `_illegalStart` (opcodes.h:120): first undocumented instruction. -/
def illegalStart : Int := 98

/-! Instruction numbers (`instruction` enumerators, opcodes.h:15-141). -/
namespace Ins
/-- `_ora` (opcodes.h:20). -/ abbrev _ora : Int := 0
/-- `_and` (opcodes.h:21). -/ abbrev _and : Int := 1
/-- `_eor` (opcodes.h:22). -/ abbrev _eor : Int := 2
/-- `_adc` (opcodes.h:23). -/ abbrev _adc : Int := 3
/-- `_sbc` (opcodes.h:24). -/ abbrev _sbc : Int := 4
/-- `_cmp` (opcodes.h:25). -/ abbrev _cmp : Int := 5
/-- `_cpx` (opcodes.h:26). -/ abbrev _cpx : Int := 6
/-- `_cpy` (opcodes.h:27). -/ abbrev _cpy : Int := 7
/-- `_dec` (opcodes.h:28). -/ abbrev _dec : Int := 8
/-- `_dex` (opcodes.h:29). -/ abbrev _dex : Int := 9
/-- `_dey` (opcodes.h:30). -/ abbrev _dey : Int := 10
/-- `_inc` (opcodes.h:31). -/ abbrev _inc : Int := 11
/-- `_inx` (opcodes.h:32). -/ abbrev _inx : Int := 12
/-- `_iny` (opcodes.h:33). -/ abbrev _iny : Int := 13
/-- `_asl` (opcodes.h:34). -/ abbrev _asl : Int := 14
/-- `_rol` (opcodes.h:35). -/ abbrev _rol : Int := 15
/-- `_lsr` (opcodes.h:36). -/ abbrev _lsr : Int := 16
/-- `_ror` (opcodes.h:37). -/ abbrev _ror : Int := 17
/-- `_lda` (opcodes.h:38). -/ abbrev _lda : Int := 18
/-- `_sta` (opcodes.h:39). -/ abbrev _sta : Int := 19
/-- `_ldx` (opcodes.h:40). -/ abbrev _ldx : Int := 20
/-- `_stx` (opcodes.h:41). -/ abbrev _stx : Int := 21
/-- `_ldy` (opcodes.h:42). -/ abbrev _ldy : Int := 22
/-- `_sty` (opcodes.h:43). -/ abbrev _sty : Int := 23
/-- `_rmb0` (opcodes.h:44). -/ abbrev _rmb0 : Int := 24
/-- `_rmb1` (opcodes.h:45). -/ abbrev _rmb1 : Int := 25
/-- `_rmb2` (opcodes.h:46). -/ abbrev _rmb2 : Int := 26
/-- `_rmb3` (opcodes.h:47). -/ abbrev _rmb3 : Int := 27
/-- `_rmb4` (opcodes.h:48). -/ abbrev _rmb4 : Int := 28
/-- `_rmb5` (opcodes.h:49). -/ abbrev _rmb5 : Int := 29
/-- `_rmb6` (opcodes.h:50). -/ abbrev _rmb6 : Int := 30
/-- `_rmb7` (opcodes.h:51). -/ abbrev _rmb7 : Int := 31
/-- `_smb0` (opcodes.h:52). -/ abbrev _smb0 : Int := 32
/-- `_smb1` (opcodes.h:53). -/ abbrev _smb1 : Int := 33
/-- `_smb2` (opcodes.h:54). -/ abbrev _smb2 : Int := 34
/-- `_smb3` (opcodes.h:55). -/ abbrev _smb3 : Int := 35
/-- `_smb4` (opcodes.h:56). -/ abbrev _smb4 : Int := 36
/-- `_smb5` (opcodes.h:57). -/ abbrev _smb5 : Int := 37
/-- `_smb6` (opcodes.h:58). -/ abbrev _smb6 : Int := 38
/-- `_smb7` (opcodes.h:59). -/ abbrev _smb7 : Int := 39
/-- `_stz` (opcodes.h:60). -/ abbrev _stz : Int := 40
/-- `_tax` (opcodes.h:61). -/ abbrev _tax : Int := 41
/-- `_txa` (opcodes.h:62). -/ abbrev _txa : Int := 42
/-- `_tay` (opcodes.h:63). -/ abbrev _tay : Int := 43
/-- `_tya` (opcodes.h:64). -/ abbrev _tya : Int := 44
/-- `_tsx` (opcodes.h:65). -/ abbrev _tsx : Int := 45
/-- `_txs` (opcodes.h:66). -/ abbrev _txs : Int := 46
/-- `_pla` (opcodes.h:67). -/ abbrev _pla : Int := 47
/-- `_pha` (opcodes.h:68). -/ abbrev _pha : Int := 48
/-- `_plp` (opcodes.h:69). -/ abbrev _plp : Int := 49
/-- `_php` (opcodes.h:70). -/ abbrev _php : Int := 50
/-- `_phx` (opcodes.h:71). -/ abbrev _phx : Int := 51
/-- `_phy` (opcodes.h:72). -/ abbrev _phy : Int := 52
/-- `_plx` (opcodes.h:73). -/ abbrev _plx : Int := 53
/-- `_ply` (opcodes.h:74). -/ abbrev _ply : Int := 54
/-- `_bra` (opcodes.h:75). -/ abbrev _bra : Int := 55
/-- `_bpl` (opcodes.h:76). -/ abbrev _bpl : Int := 56
/-- `_bmi` (opcodes.h:77). -/ abbrev _bmi : Int := 57
/-- `_bvc` (opcodes.h:78). -/ abbrev _bvc : Int := 58
/-- `_bvs` (opcodes.h:79). -/ abbrev _bvs : Int := 59
/-- `_bcc` (opcodes.h:80). -/ abbrev _bcc : Int := 60
/-- `_bcs` (opcodes.h:81). -/ abbrev _bcs : Int := 61
/-- `_bne` (opcodes.h:82). -/ abbrev _bne : Int := 62
/-- `_beq` (opcodes.h:83). -/ abbrev _beq : Int := 63
/-- `_bbr0` (opcodes.h:84). -/ abbrev _bbr0 : Int := 64
/-- `_bbr1` (opcodes.h:85). -/ abbrev _bbr1 : Int := 65
/-- `_bbr2` (opcodes.h:86). -/ abbrev _bbr2 : Int := 66
/-- `_bbr3` (opcodes.h:87). -/ abbrev _bbr3 : Int := 67
/-- `_bbr4` (opcodes.h:88). -/ abbrev _bbr4 : Int := 68
/-- `_bbr5` (opcodes.h:89). -/ abbrev _bbr5 : Int := 69
/-- `_bbr6` (opcodes.h:90). -/ abbrev _bbr6 : Int := 70
/-- `_bbr7` (opcodes.h:91). -/ abbrev _bbr7 : Int := 71
/-- `_bbs0` (opcodes.h:92). -/ abbrev _bbs0 : Int := 72
/-- `_bbs1` (opcodes.h:93). -/ abbrev _bbs1 : Int := 73
/-- `_bbs2` (opcodes.h:94). -/ abbrev _bbs2 : Int := 74
/-- `_bbs3` (opcodes.h:95). -/ abbrev _bbs3 : Int := 75
/-- `_bbs4` (opcodes.h:96). -/ abbrev _bbs4 : Int := 76
/-- `_bbs5` (opcodes.h:97). -/ abbrev _bbs5 : Int := 77
/-- `_bbs6` (opcodes.h:98). -/ abbrev _bbs6 : Int := 78
/-- `_bbs7` (opcodes.h:99). -/ abbrev _bbs7 : Int := 79
/-- `_stp` (opcodes.h:100). -/ abbrev _stp : Int := 80
/-- `_wai` (opcodes.h:101). -/ abbrev _wai : Int := 81
/-- `_brk` (opcodes.h:102). -/ abbrev _brk : Int := 82
/-- `_rti` (opcodes.h:103). -/ abbrev _rti : Int := 83
/-- `_jsr` (opcodes.h:104). -/ abbrev _jsr : Int := 84
/-- `_rts` (opcodes.h:105). -/ abbrev _rts : Int := 85
/-- `_jmp` (opcodes.h:106). -/ abbrev _jmp : Int := 86
/-- `_bit` (opcodes.h:107). -/ abbrev _bit : Int := 87
/-- `_trb` (opcodes.h:108). -/ abbrev _trb : Int := 88
/-- `_tsb` (opcodes.h:109). -/ abbrev _tsb : Int := 89
/-- `_clc` (opcodes.h:110). -/ abbrev _clc : Int := 90
/-- `_sec` (opcodes.h:111). -/ abbrev _sec : Int := 91
/-- `_cld` (opcodes.h:112). -/ abbrev _cld : Int := 92
/-- `_sed` (opcodes.h:113). -/ abbrev _sed : Int := 93
/-- `_cli` (opcodes.h:114). -/ abbrev _cli : Int := 94
/-- `_sei` (opcodes.h:115). -/ abbrev _sei : Int := 95
/-- `_clv` (opcodes.h:116). -/ abbrev _clv : Int := 96
/-- `_nop` (opcodes.h:117). -/ abbrev _nop : Int := 97
/-- `_slo` (opcodes.h:121). -/ abbrev _slo : Int := 98
/-- `_rla` (opcodes.h:122). -/ abbrev _rla : Int := 99
/-- `_sre` (opcodes.h:123). -/ abbrev _sre : Int := 100
/-- `_rra` (opcodes.h:124). -/ abbrev _rra : Int := 101
/-- `_sax` (opcodes.h:125). -/ abbrev _sax : Int := 102
/-- `_lax` (opcodes.h:126). -/ abbrev _lax : Int := 103
/-- `_dcp` (opcodes.h:127). -/ abbrev _dcp : Int := 104
/-- `_isc` (opcodes.h:128). -/ abbrev _isc : Int := 105
/-- `_anc` (opcodes.h:129). -/ abbrev _anc : Int := 106
/-- `_anc2` (opcodes.h:130). -/ abbrev _anc2 : Int := 107
/-- `_alr` (opcodes.h:131). -/ abbrev _alr : Int := 108
/-- `_arr` (opcodes.h:132). -/ abbrev _arr : Int := 109
/-- `_xaa` (opcodes.h:133). -/ abbrev _xaa : Int := 110
/-- `_axs` (opcodes.h:134). -/ abbrev _axs : Int := 111
/-- `_usbc` (opcodes.h:135). -/ abbrev _usbc : Int := 112
/-- `_ahx` (opcodes.h:136). -/ abbrev _ahx : Int := 113
/-- `_shy` (opcodes.h:137). -/ abbrev _shy : Int := 114
/-- `_shx` (opcodes.h:138). -/ abbrev _shx : Int := 115
/-- `_tas` (opcodes.h:139). -/ abbrev _tas : Int := 116
/-- `_las` (opcodes.h:141). -/ abbrev _las : Int := 117
end Ins

/-- Rows 0 to 13 of `ops6502` (opcodes.cc:167-300). -/
def ops6502Part0 : List (Int × List Int) := [
  (Ins._ora, [-1, 0x09, 0x05, -1, 0x15, -1, 0x01, 0x11, 0x0D, -1, 0x1D, 0x19, -1, -1, -1]),
  (Ins._and, [-1, 0x29, 0x25, -1, 0x35, -1, 0x21, 0x31, 0x2D, -1, 0x3D, 0x39, -1, -1, -1]),
  (Ins._eor, [-1, 0x49, 0x45, -1, 0x55, -1, 0x41, 0x51, 0x4D, -1, 0x5D, 0x59, -1, -1, -1]),
  (Ins._adc, [-1, 0x69, 0x65, -1, 0x75, -1, 0x61, 0x71, 0x6D, -1, 0x7D, 0x79, -1, -1, -1]),
  (Ins._sbc, [-1, 0xE9, 0xE5, -1, 0xF5, -1, 0xE1, 0xF1, 0xED, -1, 0xFD, 0xF9, -1, -1, -1]),
  (Ins._cmp, [-1, 0xC9, 0xC5, -1, 0xD5, -1, 0xC1, 0xD1, 0xCD, -1, 0xDD, 0xD9, -1, -1, -1]),
  (Ins._cpx, [-1, 0xE0, 0xE4, -1, -1, -1, -1, -1, 0xEC, -1, -1, -1, -1, -1, -1]),
  (Ins._cpy, [-1, 0xC0, 0xC4, -1, -1, -1, -1, -1, 0xCC, -1, -1, -1, -1, -1, -1]),
  (Ins._dec, [-1, -1, 0xC6, -1, 0xD6, -1, -1, -1, 0xCE, -1, 0xDE, -1, -1, -1, -1]),
  (Ins._dex, [0xCA, -1, -1, -1, -1, -1, -1, -1, -1, -1, -1, -1, -1, -1, -1]),
  (Ins._dey, [0x88, -1, -1, -1, -1, -1, -1, -1, -1, -1, -1, -1, -1, -1, -1]),
  (Ins._inc, [-1, -1, 0xE6, -1, 0xF6, -1, -1, -1, 0xEE, -1, 0xFE, -1, -1, -1, -1]),
  (Ins._inx, [0xE8, -1, -1, -1, -1, -1, -1, -1, -1, -1, -1, -1, -1, -1, -1]),
  (Ins._iny, [0xC8, -1, -1, -1, -1, -1, -1, -1, -1, -1, -1, -1, -1, -1, -1])
]

/-- Rows 14 to 27 of `ops6502` (opcodes.cc:167-300). -/
def ops6502Part1 : List (Int × List Int) := [
  (Ins._asl, [0x0A, -1, 0x06, -1, 0x16, -1, -1, -1, 0x0E, -1, 0x1E, -1, -1, -1, 0x0A]),
  (Ins._rol, [0x2A, -1, 0x26, -1, 0x36, -1, -1, -1, 0x2E, -1, 0x3E, -1, -1, -1, 0x2A]),
  (Ins._lsr, [0x4A, -1, 0x46, -1, 0x56, -1, -1, -1, 0x4E, -1, 0x5E, -1, -1, -1, 0x4A]),
  (Ins._ror, [0x6A, -1, 0x66, -1, 0x76, -1, -1, -1, 0x6E, -1, 0x7E, -1, -1, -1, 0x6A]),
  (Ins._lda, [-1, 0xA9, 0xA5, -1, 0xB5, -1, 0xA1, 0xB1, 0xAD, -1, 0xBD, 0xB9, -1, -1, -1]),
  (Ins._sta, [-1, -1, 0x85, -1, 0x95, -1, 0x81, 0x91, 0x8D, -1, 0x9D, 0x99, -1, -1, -1]),
  (Ins._ldx, [-1, 0xA2, 0xA6, -1, -1, 0xB6, -1, -1, 0xAE, -1, -1, 0xBE, -1, -1, -1]),
  (Ins._stx, [-1, -1, 0x86, -1, -1, 0x96, -1, -1, 0x8E, -1, -1, -1, -1, -1, -1]),
  (Ins._ldy, [-1, 0xA0, 0xA4, -1, 0xB4, -1, -1, -1, 0xAC, -1, 0xBC, -1, -1, -1, -1]),
  (Ins._sty, [-1, -1, 0x84, -1, 0x94, -1, -1, -1, 0x8C, -1, -1, -1, -1, -1, -1]),
  (Ins._rmb0, [-1, -1, -1, -1, -1, -1, -1, -1, -1, -1, -1, -1, -1, -1, -1]),
  (Ins._rmb1, [-1, -1, -1, -1, -1, -1, -1, -1, -1, -1, -1, -1, -1, -1, -1]),
  (Ins._rmb2, [-1, -1, -1, -1, -1, -1, -1, -1, -1, -1, -1, -1, -1, -1, -1]),
  (Ins._rmb3, [-1, -1, -1, -1, -1, -1, -1, -1, -1, -1, -1, -1, -1, -1, -1])
]

/-- Rows 28 to 41 of `ops6502` (opcodes.cc:167-300). -/
def ops6502Part2 : List (Int × List Int) := [
  (Ins._rmb4, [-1, -1, -1, -1, -1, -1, -1, -1, -1, -1, -1, -1, -1, -1, -1]),
  (Ins._rmb5, [-1, -1, -1, -1, -1, -1, -1, -1, -1, -1, -1, -1, -1, -1, -1]),
  (Ins._rmb6, [-1, -1, -1, -1, -1, -1, -1, -1, -1, -1, -1, -1, -1, -1, -1]),
  (Ins._rmb7, [-1, -1, -1, -1, -1, -1, -1, -1, -1, -1, -1, -1, -1, -1, -1]),
  (Ins._smb0, [-1, -1, -1, -1, -1, -1, -1, -1, -1, -1, -1, -1, -1, -1, -1]),
  (Ins._smb1, [-1, -1, -1, -1, -1, -1, -1, -1, -1, -1, -1, -1, -1, -1, -1]),
  (Ins._smb2, [-1, -1, -1, -1, -1, -1, -1, -1, -1, -1, -1, -1, -1, -1, -1]),
  (Ins._smb3, [-1, -1, -1, -1, -1, -1, -1, -1, -1, -1, -1, -1, -1, -1, -1]),
  (Ins._smb4, [-1, -1, -1, -1, -1, -1, -1, -1, -1, -1, -1, -1, -1, -1, -1]),
  (Ins._smb5, [-1, -1, -1, -1, -1, -1, -1, -1, -1, -1, -1, -1, -1, -1, -1]),
  (Ins._smb6, [-1, -1, -1, -1, -1, -1, -1, -1, -1, -1, -1, -1, -1, -1, -1]),
  (Ins._smb7, [-1, -1, -1, -1, -1, -1, -1, -1, -1, -1, -1, -1, -1, -1, -1]),
  (Ins._stz, [-1, -1, -1, -1, -1, -1, -1, -1, -1, -1, -1, -1, -1, -1, -1]),
  (Ins._tax, [0xAA, -1, -1, -1, -1, -1, -1, -1, -1, -1, -1, -1, -1, -1, -1])
]

/-- Rows 42 to 55 of `ops6502` (opcodes.cc:167-300). -/
def ops6502Part3 : List (Int × List Int) := [
  (Ins._txa, [0x8A, -1, -1, -1, -1, -1, -1, -1, -1, -1, -1, -1, -1, -1, -1]),
  (Ins._tay, [0xA8, -1, -1, -1, -1, -1, -1, -1, -1, -1, -1, -1, -1, -1, -1]),
  (Ins._tya, [0x98, -1, -1, -1, -1, -1, -1, -1, -1, -1, -1, -1, -1, -1, -1]),
  (Ins._tsx, [0xBA, -1, -1, -1, -1, -1, -1, -1, -1, -1, -1, -1, -1, -1, -1]),
  (Ins._txs, [0x9A, -1, -1, -1, -1, -1, -1, -1, -1, -1, -1, -1, -1, -1, -1]),
  (Ins._pla, [0x68, -1, -1, -1, -1, -1, -1, -1, -1, -1, -1, -1, -1, -1, -1]),
  (Ins._pha, [0x48, -1, -1, -1, -1, -1, -1, -1, -1, -1, -1, -1, -1, -1, -1]),
  (Ins._plp, [0x28, -1, -1, -1, -1, -1, -1, -1, -1, -1, -1, -1, -1, -1, -1]),
  (Ins._php, [0x08, -1, -1, -1, -1, -1, -1, -1, -1, -1, -1, -1, -1, -1, -1]),
  (Ins._phx, [-1, -1, -1, -1, -1, -1, -1, -1, -1, -1, -1, -1, -1, -1, -1]),
  (Ins._phy, [-1, -1, -1, -1, -1, -1, -1, -1, -1, -1, -1, -1, -1, -1, -1]),
  (Ins._plx, [-1, -1, -1, -1, -1, -1, -1, -1, -1, -1, -1, -1, -1, -1, -1]),
  (Ins._ply, [-1, -1, -1, -1, -1, -1, -1, -1, -1, -1, -1, -1, -1, -1, -1]),
  (Ins._bra, [-1, -1, -1, -1, -1, -1, -1, -1, -1, -1, -1, -1, -1, -1, -1])
]

/-- Rows 56 to 69 of `ops6502` (opcodes.cc:167-300). -/
def ops6502Part4 : List (Int × List Int) := [
  (Ins._bpl, [-1, -1, -1, -1, -1, -1, -1, -1, -1, -1, -1, -1, -1, 0x10, -1]),
  (Ins._bmi, [-1, -1, -1, -1, -1, -1, -1, -1, -1, -1, -1, -1, -1, 0x30, -1]),
  (Ins._bvc, [-1, -1, -1, -1, -1, -1, -1, -1, -1, -1, -1, -1, -1, 0x50, -1]),
  (Ins._bvs, [-1, -1, -1, -1, -1, -1, -1, -1, -1, -1, -1, -1, -1, 0x70, -1]),
  (Ins._bcc, [-1, -1, -1, -1, -1, -1, -1, -1, -1, -1, -1, -1, -1, 0x90, -1]),
  (Ins._bcs, [-1, -1, -1, -1, -1, -1, -1, -1, -1, -1, -1, -1, -1, 0xB0, -1]),
  (Ins._bne, [-1, -1, -1, -1, -1, -1, -1, -1, -1, -1, -1, -1, -1, 0xD0, -1]),
  (Ins._beq, [-1, -1, -1, -1, -1, -1, -1, -1, -1, -1, -1, -1, -1, 0xF0, -1]),
  (Ins._bbr0, [-1, -1, -1, -1, -1, -1, -1, -1, -1, -1, -1, -1, -1, -1, -1]),
  (Ins._bbr1, [-1, -1, -1, -1, -1, -1, -1, -1, -1, -1, -1, -1, -1, -1, -1]),
  (Ins._bbr2, [-1, -1, -1, -1, -1, -1, -1, -1, -1, -1, -1, -1, -1, -1, -1]),
  (Ins._bbr3, [-1, -1, -1, -1, -1, -1, -1, -1, -1, -1, -1, -1, -1, -1, -1]),
  (Ins._bbr4, [-1, -1, -1, -1, -1, -1, -1, -1, -1, -1, -1, -1, -1, -1, -1]),
  (Ins._bbr5, [-1, -1, -1, -1, -1, -1, -1, -1, -1, -1, -1, -1, -1, -1, -1])
]

/-- Rows 70 to 83 of `ops6502` (opcodes.cc:167-300). -/
def ops6502Part5 : List (Int × List Int) := [
  (Ins._bbr6, [-1, -1, -1, -1, -1, -1, -1, -1, -1, -1, -1, -1, -1, -1, -1]),
  (Ins._bbr7, [-1, -1, -1, -1, -1, -1, -1, -1, -1, -1, -1, -1, -1, -1, -1]),
  (Ins._bbs0, [-1, -1, -1, -1, -1, -1, -1, -1, -1, -1, -1, -1, -1, -1, -1]),
  (Ins._bbs1, [-1, -1, -1, -1, -1, -1, -1, -1, -1, -1, -1, -1, -1, -1, -1]),
  (Ins._bbs2, [-1, -1, -1, -1, -1, -1, -1, -1, -1, -1, -1, -1, -1, -1, -1]),
  (Ins._bbs3, [-1, -1, -1, -1, -1, -1, -1, -1, -1, -1, -1, -1, -1, -1, -1]),
  (Ins._bbs4, [-1, -1, -1, -1, -1, -1, -1, -1, -1, -1, -1, -1, -1, -1, -1]),
  (Ins._bbs5, [-1, -1, -1, -1, -1, -1, -1, -1, -1, -1, -1, -1, -1, -1, -1]),
  (Ins._bbs6, [-1, -1, -1, -1, -1, -1, -1, -1, -1, -1, -1, -1, -1, -1, -1]),
  (Ins._bbs7, [-1, -1, -1, -1, -1, -1, -1, -1, -1, -1, -1, -1, -1, -1, -1]),
  (Ins._stp, [-1, -1, -1, -1, -1, -1, -1, -1, -1, -1, -1, -1, -1, -1, -1]),
  (Ins._wai, [-1, -1, -1, -1, -1, -1, -1, -1, -1, -1, -1, -1, -1, -1, -1]),
  (Ins._brk, [0x00, -1, -1, -1, -1, -1, -1, -1, -1, -1, -1, -1, -1, -1, -1]),
  (Ins._rti, [0x40, -1, -1, -1, -1, -1, -1, -1, -1, -1, -1, -1, -1, -1, -1])
]

/-- Rows 84 to 97 of `ops6502` (opcodes.cc:167-300). -/
def ops6502Part6 : List (Int × List Int) := [
  (Ins._jsr, [-1, -1, -1, -1, -1, -1, -1, -1, 0x20, -1, -1, -1, -1, -1, -1]),
  (Ins._rts, [0x60, -1, -1, -1, -1, -1, -1, -1, -1, -1, -1, -1, -1, -1, -1]),
  (Ins._jmp, [-1, -1, -1, -1, -1, -1, -1, -1, 0x4C, -1, -1, -1, 0x6C, -1, -1]),
  (Ins._bit, [-1, -1, 0x24, -1, -1, -1, -1, -1, 0x2C, -1, -1, -1, -1, -1, -1]),
  (Ins._trb, [-1, -1, -1, -1, -1, -1, -1, -1, -1, -1, -1, -1, -1, -1, -1]),
  (Ins._tsb, [-1, -1, -1, -1, -1, -1, -1, -1, -1, -1, -1, -1, -1, -1, -1]),
  (Ins._clc, [0x18, -1, -1, -1, -1, -1, -1, -1, -1, -1, -1, -1, -1, -1, -1]),
  (Ins._sec, [0x38, -1, -1, -1, -1, -1, -1, -1, -1, -1, -1, -1, -1, -1, -1]),
  (Ins._cld, [0xD8, -1, -1, -1, -1, -1, -1, -1, -1, -1, -1, -1, -1, -1, -1]),
  (Ins._sed, [0xF8, -1, -1, -1, -1, -1, -1, -1, -1, -1, -1, -1, -1, -1, -1]),
  (Ins._cli, [0x58, -1, -1, -1, -1, -1, -1, -1, -1, -1, -1, -1, -1, -1, -1]),
  (Ins._sei, [0x78, -1, -1, -1, -1, -1, -1, -1, -1, -1, -1, -1, -1, -1, -1]),
  (Ins._clv, [0xB8, -1, -1, -1, -1, -1, -1, -1, -1, -1, -1, -1, -1, -1, -1]),
  (Ins._nop, [0xEA, -1, -1, -1, -1, -1, -1, -1, -1, -1, -1, -1, -1, -1, -1])
]

/-- Rows 98 to 111 of `ops6502` (opcodes.cc:167-300). -/
def ops6502Part7 : List (Int × List Int) := [
  (Ins._slo, [-1, -1, 0x07, -1, 0x17, -1, 0x03, 0x13, 0x0F, -1, 0x1F, 0x1B, -1, -1, -1]),
  (Ins._rla, [-1, -1, 0x27, -1, 0x37, -1, 0x23, 0x33, 0x2F, -1, 0x3F, 0x3B, -1, -1, -1]),
  (Ins._sre, [-1, -1, 0x47, -1, 0x57, -1, 0x43, 0x53, 0x4F, -1, 0x5F, 0x5B, -1, -1, -1]),
  (Ins._rra, [-1, -1, 0x67, -1, 0x77, -1, 0x63, 0x73, 0x6F, -1, 0x7F, 0x7B, -1, -1, -1]),
  (Ins._sax, [-1, -1, 0x87, -1, -1, 0x97, 0x83, -1, 0x8F, -1, -1, -1, -1, -1, -1]),
  (Ins._lax, [-1, 0xAB, 0xA7, -1, -1, 0xB7, 0xA3, 0xB3, 0xAF, -1, -1, 0xBF, -1, -1, -1]),
  (Ins._dcp, [-1, -1, 0xC7, -1, 0xD7, -1, 0xC3, 0xD3, 0xCF, -1, 0xDF, 0xDB, -1, -1, -1]),
  (Ins._isc, [-1, -1, 0xE7, -1, 0xF7, -1, 0xE3, 0xF3, 0xEF, -1, 0xFF, 0xFB, -1, -1, -1]),
  (Ins._anc, [-1, 0x0B, -1, -1, -1, -1, -1, -1, -1, -1, -1, -1, -1, -1, -1]),
  (Ins._anc2, [-1, 0x2B, -1, -1, -1, -1, -1, -1, -1, -1, -1, -1, -1, -1, -1]),
  (Ins._alr, [-1, 0x4B, -1, -1, -1, -1, -1, -1, -1, -1, -1, -1, -1, -1, -1]),
  (Ins._arr, [-1, 0x6B, -1, -1, -1, -1, -1, -1, -1, -1, -1, -1, -1, -1, -1]),
  (Ins._xaa, [-1, 0x8B, -1, -1, -1, -1, -1, -1, -1, -1, -1, -1, -1, -1, -1]),
  (Ins._axs, [-1, 0xCB, -1, -1, -1, -1, -1, -1, -1, -1, -1, -1, -1, -1, -1])
]

/-- Rows 112 to 117 of `ops6502` (opcodes.cc:167-300). -/
def ops6502Part8 : List (Int × List Int) := [
  (Ins._usbc, [-1, 0xEB, -1, -1, -1, -1, -1, -1, -1, -1, -1, -1, -1, -1, -1]),
  (Ins._ahx, [-1, -1, -1, -1, -1, -1, -1, 0x93, -1, -1, -1, 0x9F, -1, -1, -1]),
  (Ins._shy, [-1, -1, -1, -1, -1, -1, -1, -1, -1, -1, 0x9C, -1, -1, -1, -1]),
  (Ins._shx, [-1, -1, -1, -1, -1, -1, -1, -1, -1, -1, -1, 0x9E, -1, -1, -1]),
  (Ins._tas, [-1, -1, -1, -1, -1, -1, -1, -1, -1, -1, -1, 0x9B, -1, -1, -1]),
  (Ins._las, [-1, -1, -1, -1, -1, -1, -1, -1, -1, -1, -1, 0xBB, -1, -1, -1])
]

/-- `ops6502` (opcodes.cc:167-300): one row per instruction; the first component is the row tag, which
the lookup skips; the remaining fifteen columns are the addressing modes in declaration order. -/
def ops6502 : List (Int × List Int) :=
  ops6502Part0 ++ (ops6502Part1 ++ (ops6502Part2 ++ (ops6502Part3 ++ (ops6502Part4 ++ (ops6502Part5 ++ (ops6502Part6 ++ (ops6502Part7 ++ (ops6502Part8))))))))

/-- Rows 0 to 13 of `ops65c02` (opcodes.cc:305-437). -/
def ops65c02Part0 : List (Int × List Int) := [
  (Ins._ora, [-1, 0x09, 0x05, -1, 0x15, -1, 0x01, 0x11, 0x0D, -1, 0x1D, 0x19, 0x12, -1, -1]),
  (Ins._and, [-1, 0x29, 0x25, -1, 0x35, -1, 0x21, 0x31, 0x2D, -1, 0x3D, 0x39, 0x32, -1, -1]),
  (Ins._eor, [-1, 0x49, 0x45, -1, 0x55, -1, 0x41, 0x51, 0x4D, -1, 0x5D, 0x59, 0x52, -1, -1]),
  (Ins._adc, [-1, 0x69, 0x65, -1, 0x75, -1, 0x61, 0x71, 0x6D, -1, 0x7D, 0x79, 0x72, -1, -1]),
  (Ins._sbc, [-1, 0xE9, 0xE5, -1, 0xF5, -1, 0xE1, 0xF1, 0xED, -1, 0xFD, 0xF9, 0xF2, -1, -1]),
  (Ins._cmp, [-1, 0xC9, 0xC5, -1, 0xD5, -1, 0xC1, 0xD1, 0xCD, -1, 0xDD, 0xD9, 0xD2, -1, -1]),
  (Ins._cpx, [-1, 0xE0, 0xE4, -1, -1, -1, -1, -1, 0xEC, -1, -1, -1, -1, -1, -1]),
  (Ins._cpy, [-1, 0xC0, 0xC4, -1, -1, -1, -1, -1, 0xCC, -1, -1, -1, -1, -1, -1]),
  (Ins._dec, [0x3A, -1, 0xC6, -1, 0xD6, -1, -1, -1, 0xCE, -1, 0xDE, -1, -1, -1, 0x3A]),
  (Ins._dex, [0xCA, -1, -1, -1, -1, -1, -1, -1, -1, -1, -1, -1, -1, -1, -1]),
  (Ins._dey, [0x88, -1, -1, -1, -1, -1, -1, -1, -1, -1, -1, -1, -1, -1, -1]),
  (Ins._inc, [0x1A, -1, 0xE6, -1, 0xF6, -1, -1, -1, 0xEE, -1, 0xFE, -1, -1, -1, 0x1A]),
  (Ins._inx, [0xE8, -1, -1, -1, -1, -1, -1, -1, -1, -1, -1, -1, -1, -1, -1]),
  (Ins._iny, [0xC8, -1, -1, -1, -1, -1, -1, -1, -1, -1, -1, -1, -1, -1, -1])
]

/-- Rows 14 to 27 of `ops65c02` (opcodes.cc:305-437). -/
def ops65c02Part1 : List (Int × List Int) := [
  (Ins._asl, [0x0A, -1, 0x06, -1, 0x16, -1, -1, -1, 0x0E, -1, 0x1E, -1, -1, -1, 0x0A]),
  (Ins._rol, [0x2A, -1, 0x26, -1, 0x36, -1, -1, -1, 0x2E, -1, 0x3E, -1, -1, -1, 0x2A]),
  (Ins._lsr, [0x4A, -1, 0x46, -1, 0x56, -1, -1, -1, 0x4E, -1, 0x5E, -1, -1, -1, 0x4A]),
  (Ins._ror, [0x6A, -1, 0x66, -1, 0x76, -1, -1, -1, 0x6E, -1, 0x7E, -1, -1, -1, 0x6A]),
  (Ins._lda, [-1, 0xA9, 0xA5, -1, 0xB5, -1, 0xA1, 0xB1, 0xAD, -1, 0xBD, 0xB9, 0xB2, -1, -1]),
  (Ins._sta, [-1, -1, 0x85, -1, 0x95, -1, 0x81, 0x91, 0x8D, -1, 0x9D, 0x99, 0x92, -1, -1]),
  (Ins._ldx, [-1, 0xA2, 0xA6, -1, -1, 0xB6, -1, -1, 0xAE, -1, -1, 0xBE, -1, -1, -1]),
  (Ins._stx, [-1, -1, 0x86, -1, -1, 0x96, -1, -1, 0x8E, -1, -1, -1, -1, -1, -1]),
  (Ins._ldy, [-1, 0xA0, 0xA4, -1, 0xB4, -1, -1, -1, 0xAC, -1, 0xBC, -1, -1, -1, -1]),
  (Ins._sty, [-1, -1, 0x84, -1, 0x94, -1, -1, -1, 0x8C, -1, -1, -1, -1, -1, -1]),
  (Ins._rmb0, [-1, -1, 0x07, -1, -1, -1, -1, -1, -1, -1, -1, -1, -1, -1, -1]),
  (Ins._rmb1, [-1, -1, 0x17, -1, -1, -1, -1, -1, -1, -1, -1, -1, -1, -1, -1]),
  (Ins._rmb2, [-1, -1, 0x27, -1, -1, -1, -1, -1, -1, -1, -1, -1, -1, -1, -1]),
  (Ins._rmb3, [-1, -1, 0x37, -1, -1, -1, -1, -1, -1, -1, -1, -1, -1, -1, -1])
]

/-- Rows 28 to 41 of `ops65c02` (opcodes.cc:305-437). -/
def ops65c02Part2 : List (Int × List Int) := [
  (Ins._rmb4, [-1, -1, 0x47, -1, -1, -1, -1, -1, -1, -1, -1, -1, -1, -1, -1]),
  (Ins._rmb5, [-1, -1, 0x57, -1, -1, -1, -1, -1, -1, -1, -1, -1, -1, -1, -1]),
  (Ins._rmb6, [-1, -1, 0x67, -1, -1, -1, -1, -1, -1, -1, -1, -1, -1, -1, -1]),
  (Ins._rmb7, [-1, -1, 0x77, -1, -1, -1, -1, -1, -1, -1, -1, -1, -1, -1, -1]),
  (Ins._smb0, [-1, -1, 0x87, -1, -1, -1, -1, -1, -1, -1, -1, -1, -1, -1, -1]),
  (Ins._smb1, [-1, -1, 0x97, -1, -1, -1, -1, -1, -1, -1, -1, -1, -1, -1, -1]),
  (Ins._smb2, [-1, -1, 0xA7, -1, -1, -1, -1, -1, -1, -1, -1, -1, -1, -1, -1]),
  (Ins._smb3, [-1, -1, 0xB7, -1, -1, -1, -1, -1, -1, -1, -1, -1, -1, -1, -1]),
  (Ins._smb4, [-1, -1, 0xC7, -1, -1, -1, -1, -1, -1, -1, -1, -1, -1, -1, -1]),
  (Ins._smb5, [-1, -1, 0xD7, -1, -1, -1, -1, -1, -1, -1, -1, -1, -1, -1, -1]),
  (Ins._smb6, [-1, -1, 0xE7, -1, -1, -1, -1, -1, -1, -1, -1, -1, -1, -1, -1]),
  (Ins._smb7, [-1, -1, 0xF7, -1, -1, -1, -1, -1, -1, -1, -1, -1, -1, -1, -1]),
  (Ins._stz, [-1, -1, 0x64, -1, 0x74, -1, -1, -1, 0x9C, -1, 0x9E, -1, -1, -1, -1]),
  (Ins._tax, [0xAA, -1, -1, -1, -1, -1, -1, -1, -1, -1, -1, -1, -1, -1, -1])
]

/-- Rows 42 to 55 of `ops65c02` (opcodes.cc:305-437). -/
def ops65c02Part3 : List (Int × List Int) := [
  (Ins._txa, [0x8A, -1, -1, -1, -1, -1, -1, -1, -1, -1, -1, -1, -1, -1, -1]),
  (Ins._tay, [0xA8, -1, -1, -1, -1, -1, -1, -1, -1, -1, -1, -1, -1, -1, -1]),
  (Ins._tya, [0x98, -1, -1, -1, -1, -1, -1, -1, -1, -1, -1, -1, -1, -1, -1]),
  (Ins._tsx, [0xBA, -1, -1, -1, -1, -1, -1, -1, -1, -1, -1, -1, -1, -1, -1]),
  (Ins._txs, [0x9A, -1, -1, -1, -1, -1, -1, -1, -1, -1, -1, -1, -1, -1, -1]),
  (Ins._pla, [0x68, -1, -1, -1, -1, -1, -1, -1, -1, -1, -1, -1, -1, -1, -1]),
  (Ins._pha, [0x48, -1, -1, -1, -1, -1, -1, -1, -1, -1, -1, -1, -1, -1, -1]),
  (Ins._plp, [0x28, -1, -1, -1, -1, -1, -1, -1, -1, -1, -1, -1, -1, -1, -1]),
  (Ins._php, [0x08, -1, -1, -1, -1, -1, -1, -1, -1, -1, -1, -1, -1, -1, -1]),
  (Ins._phx, [0xDA, -1, -1, -1, -1, -1, -1, -1, -1, -1, -1, -1, -1, -1, -1]),
  (Ins._phy, [0x5A, -1, -1, -1, -1, -1, -1, -1, -1, -1, -1, -1, -1, -1, -1]),
  (Ins._plx, [0xFA, -1, -1, -1, -1, -1, -1, -1, -1, -1, -1, -1, -1, -1, -1]),
  (Ins._ply, [0x7A, -1, -1, -1, -1, -1, -1, -1, -1, -1, -1, -1, -1, -1, -1]),
  (Ins._bra, [-1, -1, -1, -1, -1, -1, -1, -1, -1, -1, -1, -1, -1, 0x80, -1])
]

/-- Rows 56 to 69 of `ops65c02` (opcodes.cc:305-437). -/
def ops65c02Part4 : List (Int × List Int) := [
  (Ins._bpl, [-1, -1, -1, -1, -1, -1, -1, -1, -1, -1, -1, -1, -1, 0x10, -1]),
  (Ins._bmi, [-1, -1, -1, -1, -1, -1, -1, -1, -1, -1, -1, -1, -1, 0x30, -1]),
  (Ins._bvc, [-1, -1, -1, -1, -1, -1, -1, -1, -1, -1, -1, -1, -1, 0x50, -1]),
  (Ins._bvs, [-1, -1, -1, -1, -1, -1, -1, -1, -1, -1, -1, -1, -1, 0x70, -1]),
  (Ins._bcc, [-1, -1, -1, -1, -1, -1, -1, -1, -1, -1, -1, -1, -1, 0x90, -1]),
  (Ins._bcs, [-1, -1, -1, -1, -1, -1, -1, -1, -1, -1, -1, -1, -1, 0xB0, -1]),
  (Ins._bne, [-1, -1, -1, -1, -1, -1, -1, -1, -1, -1, -1, -1, -1, 0xD0, -1]),
  (Ins._beq, [-1, -1, -1, -1, -1, -1, -1, -1, -1, -1, -1, -1, -1, 0xF0, -1]),
  (Ins._bbr0, [-1, -1, -1, -1, -1, -1, -1, -1, -1, -1, -1, -1, -1, 0x0F, -1]),
  (Ins._bbr1, [-1, -1, -1, -1, -1, -1, -1, -1, -1, -1, -1, -1, -1, 0x1F, -1]),
  (Ins._bbr2, [-1, -1, -1, -1, -1, -1, -1, -1, -1, -1, -1, -1, -1, 0x2F, -1]),
  (Ins._bbr3, [-1, -1, -1, -1, -1, -1, -1, -1, -1, -1, -1, -1, -1, 0x3F, -1]),
  (Ins._bbr4, [-1, -1, -1, -1, -1, -1, -1, -1, -1, -1, -1, -1, -1, 0x4F, -1]),
  (Ins._bbr5, [-1, -1, -1, -1, -1, -1, -1, -1, -1, -1, -1, -1, -1, 0x5F, -1])
]

/-- Rows 70 to 83 of `ops65c02` (opcodes.cc:305-437). -/
def ops65c02Part5 : List (Int × List Int) := [
  (Ins._bbr6, [-1, -1, -1, -1, -1, -1, -1, -1, -1, -1, -1, -1, -1, 0x6F, -1]),
  (Ins._bbr7, [-1, -1, -1, -1, -1, -1, -1, -1, -1, -1, -1, -1, -1, 0x7F, -1]),
  (Ins._bbs0, [-1, -1, -1, -1, -1, -1, -1, -1, -1, -1, -1, -1, -1, 0x8F, -1]),
  (Ins._bbs1, [-1, -1, -1, -1, -1, -1, -1, -1, -1, -1, -1, -1, -1, 0x9F, -1]),
  (Ins._bbs2, [-1, -1, -1, -1, -1, -1, -1, -1, -1, -1, -1, -1, -1, 0xAF, -1]),
  (Ins._bbs3, [-1, -1, -1, -1, -1, -1, -1, -1, -1, -1, -1, -1, -1, 0xBF, -1]),
  (Ins._bbs4, [-1, -1, -1, -1, -1, -1, -1, -1, -1, -1, -1, -1, -1, 0xCF, -1]),
  (Ins._bbs5, [-1, -1, -1, -1, -1, -1, -1, -1, -1, -1, -1, -1, -1, 0xDF, -1]),
  (Ins._bbs6, [-1, -1, -1, -1, -1, -1, -1, -1, -1, -1, -1, -1, -1, 0xEF, -1]),
  (Ins._bbs7, [-1, -1, -1, -1, -1, -1, -1, -1, -1, -1, -1, -1, -1, 0xFF, -1]),
  (Ins._stp, [0xDB, -1, -1, -1, -1, -1, -1, -1, -1, -1, -1, -1, -1, -1, -1]),
  (Ins._wai, [0xCB, -1, -1, -1, -1, -1, -1, -1, -1, -1, -1, -1, -1, -1, -1]),
  (Ins._brk, [0x00, -1, -1, -1, -1, -1, -1, -1, -1, -1, -1, -1, -1, -1, -1]),
  (Ins._rti, [0x40, -1, -1, -1, -1, -1, -1, -1, -1, -1, -1, -1, -1, -1, -1])
]

/-- Rows 84 to 97 of `ops65c02` (opcodes.cc:305-437). -/
def ops65c02Part6 : List (Int × List Int) := [
  (Ins._jsr, [-1, -1, -1, -1, -1, -1, -1, -1, 0x20, -1, -1, -1, -1, -1, -1]),
  (Ins._rts, [0x60, -1, -1, -1, -1, -1, -1, -1, -1, -1, -1, -1, -1, -1, -1]),
  (Ins._jmp, [-1, -1, -1, -1, -1, -1, -1, -1, 0x4C, 0x7C, -1, -1, 0x6C, -1, -1]),
  (Ins._bit, [-1, 0x89, 0x24, -1, 0x34, -1, -1, -1, 0x2C, -1, 0x3C, -1, -1, -1, -1]),
  (Ins._trb, [-1, -1, 0x14, -1, -1, -1, -1, -1, 0x1C, -1, -1, -1, -1, -1, -1]),
  (Ins._tsb, [-1, -1, 0x04, -1, -1, -1, -1, -1, 0x0C, -1, -1, -1, -1, -1, -1]),
  (Ins._clc, [0x18, -1, -1, -1, -1, -1, -1, -1, -1, -1, -1, -1, -1, -1, -1]),
  (Ins._sec, [0x38, -1, -1, -1, -1, -1, -1, -1, -1, -1, -1, -1, -1, -1, -1]),
  (Ins._cld, [0xD8, -1, -1, -1, -1, -1, -1, -1, -1, -1, -1, -1, -1, -1, -1]),
  (Ins._sed, [0xF8, -1, -1, -1, -1, -1, -1, -1, -1, -1, -1, -1, -1, -1, -1]),
  (Ins._cli, [0x58, -1, -1, -1, -1, -1, -1, -1, -1, -1, -1, -1, -1, -1, -1]),
  (Ins._sei, [0x78, -1, -1, -1, -1, -1, -1, -1, -1, -1, -1, -1, -1, -1, -1]),
  (Ins._clv, [0xB8, -1, -1, -1, -1, -1, -1, -1, -1, -1, -1, -1, -1, -1, -1]),
  (Ins._nop, [0xEA, -1, -1, -1, -1, -1, -1, -1, -1, -1, -1, -1, -1, -1, -1])
]

/-- Rows 98 to 111 of `ops65c02` (opcodes.cc:305-437). -/
def ops65c02Part7 : List (Int × List Int) := [
  (Ins._slo, [-1, -1, 0x07, -1, 0x17, -1, 0x03, 0x13, 0x0F, -1, 0x1F, 0x1B, -1, -1, -1]),
  (Ins._rla, [-1, -1, 0x27, -1, 0x37, -1, 0x23, 0x33, 0x2F, -1, 0x3F, 0x3B, -1, -1, -1]),
  (Ins._sre, [-1, -1, 0x47, -1, 0x57, -1, 0x43, 0x53, 0x4F, -1, 0x5F, 0x5B, -1, -1, -1]),
  (Ins._rra, [-1, -1, 0x67, -1, 0x77, -1, 0x63, 0x73, 0x6F, -1, 0x7F, 0x7B, -1, -1, -1]),
  (Ins._sax, [-1, -1, 0x87, -1, -1, 0x97, 0x83, -1, 0x8F, -1, -1, -1, -1, -1, -1]),
  (Ins._lax, [-1, -1, 0xA7, -1, -1, 0xB7, 0xA3, 0xB3, 0xAF, -1, -1, 0xBF, -1, -1, -1]),
  (Ins._dcp, [-1, -1, 0xC7, -1, 0xD7, -1, 0xC3, 0xD3, 0xCF, -1, 0xDF, 0xDB, -1, -1, -1]),
  (Ins._isc, [-1, -1, 0xE7, -1, 0xF7, -1, 0xE3, 0xF3, 0xEF, -1, 0xFF, 0xFB, -1, -1, -1]),
  (Ins._anc, [-1, 0x0B, -1, -1, -1, -1, -1, -1, -1, -1, -1, -1, -1, -1, -1]),
  (Ins._anc2, [-1, 0x2B, -1, -1, -1, -1, -1, -1, -1, -1, -1, -1, -1, -1, -1]),
  (Ins._alr, [-1, 0x4B, -1, -1, -1, -1, -1, -1, -1, -1, -1, -1, -1, -1, -1]),
  (Ins._arr, [-1, 0x6B, -1, -1, -1, -1, -1, -1, -1, -1, -1, -1, -1, -1, -1]),
  (Ins._xaa, [-1, 0x8B, -1, -1, -1, -1, -1, -1, -1, -1, -1, -1, -1, -1, -1]),
  (Ins._axs, [-1, 0xCB, -1, -1, -1, -1, -1, -1, -1, -1, -1, -1, -1, -1, -1])
]

/-- Rows 112 to 117 of `ops65c02` (opcodes.cc:305-437). -/
def ops65c02Part8 : List (Int × List Int) := [
  (Ins._usbc, [-1, 0xEB, -1, -1, -1, -1, -1, -1, -1, -1, -1, -1, -1, -1, -1]),
  (Ins._ahx, [-1, -1, -1, -1, -1, -1, -1, 0x93, -1, -1, -1, 0x9F, -1, -1, -1]),
  (Ins._shy, [-1, -1, -1, -1, -1, -1, -1, -1, -1, -1, 0x9C, -1, -1, -1, -1]),
  (Ins._shx, [-1, -1, -1, -1, -1, -1, -1, -1, -1, -1, -1, 0x9E, -1, -1, -1]),
  (Ins._tas, [-1, -1, -1, -1, -1, -1, -1, -1, -1, -1, -1, 0x9B, -1, -1, -1]),
  (Ins._las, [-1, -1, -1, -1, -1, -1, -1, -1, -1, -1, -1, 0xBB, -1, -1, -1])
]

/-- `ops65c02` (opcodes.cc:305-437): one row per instruction; the first component is the row tag, which
the lookup skips; the remaining fifteen columns are the addressing modes in declaration order. -/
def ops65c02 : List (Int × List Int) :=
  ops65c02Part0 ++ (ops65c02Part1 ++ (ops65c02Part2 ++ (ops65c02Part3 ++ (ops65c02Part4 ++ (ops65c02Part5 ++ (ops65c02Part6 ++ (ops65c02Part7 ++ (ops65c02Part8))))))))

/-- `instr_look_up` (opcodes.cc:24-141): mnemonic of every instruction number, in table order.  The
scanner rules (pasm.l:65-154) return the instruction number of the mnemonic they match. -/
def instrNames : List String := [
  "ora", "and", "eor", "adc", "sbc", "cmp", "cpx", "cpy", "dec", "dex",
  "dey", "inc", "inx", "iny", "asl", "rol", "lsr", "ror", "lda", "sta",
  "ldx", "stx", "ldy", "sty", "rmb0", "rmb1", "rmb2", "rmb3", "rmb4", "rmb5",
  "rmb6", "rmb7", "smb0", "smb1", "smb2", "smb3", "smb4", "smb5", "smb6", "smb7",
  "stz", "tax", "txa", "tay", "tya", "tsx", "txs", "pla", "pha", "plp",
  "php", "phx", "phy", "plx", "ply", "bra", "bpl", "bmi", "bvc", "bvs",
  "bcc", "bcs", "bne", "beq", "bbr0", "bbr1", "bbr2", "bbr3", "bbr4", "bbr5",
  "bbr6", "bbr7", "bbs0", "bbs1", "bbs2", "bbs3", "bbs4", "bbs5", "bbs6", "bbs7",
  "stp", "wai", "brk", "rti", "jsr", "rts", "jmp", "bit", "trb", "tsb",
  "clc", "sec", "cld", "sed", "cli", "sei", "clv", "nop", "slo", "rla",
  "sre", "rra", "sax", "lax", "dcp", "isc", "anc", "anc2", "alr", "arr",
  "xaa", "axs", "usbc", "ahx", "shy", "shx", "tas", "las"]

/-- Instruction number of a (lower-case) mnemonic: the `OP`, `OP_REL` scanner rules (pasm.l:31-35,
65-154). -/
def instrOfName (s : String) : Option Int := (instrNames.idxOf? s).map Int.ofNat

/-- C array read `table[instruction][mode + 1]` of opcodes.cc:459-462.  `none` is an out-of-bounds
read (undefined behaviour). -/
def tableRead (t : List (Int × List Int)) (instruction mode : Int) : Option Int :=
  if 0 ≤ instruction ∧ 0 ≤ mode then
    match t[instruction.toNat]? with
    | some row => row.2[mode.toNat]?
    | none => none
  else none

/-- `get_op_code` (opcodes.cc:447-466) as a function of the two globals `cpu_mode` and
`allow_illegal_op_codes`.  `none` marks an out-of-bounds table read. -/
def getOpCodeRaw (cpu : Cpu) (illegal : Bool) (instruction mode : Int) : Option Int :=
  if (0 ≤ instruction ∧ instruction < maxOpcode) ∧ (0 ≤ mode ∧ mode < maxAddressingMode) then
    if !illegal && decide (instruction ≥ illegalStart) && decide (cpu = .c6502) then some (-1)
    else
      match cpu with
      | .c6502 => tableRead ops6502 instruction mode
      | .c65C02 => tableRead ops65c02 instruction mode
  else some (-1)

/-- `get_op_code` with an enumerator as mode, as called everywhere in expand.cc and node.cc.
The out-of-bounds case is shown impossible in `Verif.Lemmas.Opcodes`; here it is mapped to -1. -/
def getOpCode (cpu : Cpu) (illegal : Bool) (instruction : Int) (mode : Mode) : Int :=
  (getOpCodeRaw cpu illegal instruction mode.toInt).getD (-1)

/-- Operand bytes of an addressing mode: the switch of `get_op_code_byte_count`
(genoutput.cc:314-352) and of `get_op_byte_count` (expand.cc:757-795), which are identical. -/
def opByteCount : Mode → Int
  | .A | .i => 0
  | .I | .r | .zp | .zpi | .zpx | .zpy | .izx | .izy => 1
  | .a | .ax | .ay | .aix | .ind => 2

end Verif
