import json
L=[]
def m(prop,file,d,old,new,claim,**k):
    L.append(dict(id='m17-%02d'%(len(L)+1),prop=prop,file='Verif/'+file,**{'def':d},old=old,new=new,claim=claim,**k))
F='Data/SpecWarn.lean'
m('C160',F,'nonIntegers','1 / 10 ^ 8 * c < |c - (round c : ℤ)|','1 / 10 ^ 8 < |c - (round c : ℤ)|','tolerance absolute instead of relative')
m('C160',F,'nonIntegers','|c - (round c : ℤ)|','(c - (round c : ℤ))','sign of the deviation kept')
m('C160',F,'zeroScale','p.2 = 0 ∧ p.1 ≠ 1','p.2 = 0','zero scales of bad channels warned of')
D='Spectrum.make'
m('C160',F,D,'warnIf (i.poisson && f.nonInt && nonIntegers i.counts) .nonInteger','warnIf (f.nonInt && nonIntegers i.counts) .nonInteger','Gaussian counts have to be whole numbers')
m('C160',F,D,'warnIf (i.poisson && f.nonInt && nonIntegers i.counts) .nonInteger','warnIf (i.poisson && nonIntegers i.counts) .nonInteger','switch ignored')
m('C160',F,D,'warnIf (i.poisson && f.sysErrors && sys.any fun e => decide (0 < e)) .sysIgnored','warnIf (i.poisson && f.sysErrors && sys.all fun e => decide (0 < e)) .sysIgnored','warned only if all systematic errors are positive')
m('C160',F,D,'let w1 := warnIf','let w1 : List Warn := [] ++ warnIf (!i.poisson && sys.any fun e => decide (0 < e)) .sysIgnored ++ warnIf','Gaussian systematic errors said to be ignored')
m('C160',F,D,'warnIf (zeroScale quality back) .backReset','warnIf (zeroScale quality area) .backReset','area scale tested for the background scale')
m('C160',F,D,'let back := resetZero quality back\n','let back := back\n','background scale warned of but not reset')
m('C160',F,D,'!i.poisson && f.zeroErrors && i.errors.any fun e => decide (e = 0)','f.zeroErrors && i.errors.any fun e => decide (e = 0)','zero errors of Poisson data warned of')
m('C160',F,D,'!i.poisson && f.zeroErrors && i.errors.any fun e => decide (e = 0)','!i.poisson && f.zeroErrors && i.errors.all fun e => decide (e = 0)','warned only if all errors are zero')
m('C160',F,D,'(w3 ++ warnIf (decide (g0 = -1)) .groupingReset','(w3','first grouping flag reset silently')
m('C160',F,D,'let errors := if i.poisson then i.errors else','let errors := if !i.poisson then i.errors else','systematic errors added to Poisson data')
D='Pha.ownWarnings'
m('C160',F,D,'(p.rate.isSome || p.rates.isSome) && p.counts.isSome','(p.rate.isSome || p.rates.isSome)','warned of errors of the rate without counts')
m('C160',F,D,'warnIf (!poisson && (p.statArr false).any fun e => decide (e = 0)) .zeroErrors','warnIf (!poisson && (p.errArr false).any fun e => decide (e = 0)) .zeroErrors','total errors tested')
m('C160',F,D,'warnIf (poisson && p.sysArr.any fun e => decide (0 < e)) .sysIgnored','warnIf (p.sysArr.any fun e => decide (0 < e)) .sysIgnored','warned of systematic errors that are used')
D='Pha.load'
m('C160',F,D,'Spectrum.make ⟨false, false, false⟩ i','Spectrum.make ⟨true, false, false⟩ i','zero errors warned of twice')
m('C160',F,D,'Spectrum.make ⟨false, false, false⟩ i','Spectrum.make ⟨false, false, true⟩ i','systematic errors warned of twice')
F='Util/ReplaceStr.lean'
m('C161',F,'setEntry','if l.same k then (l, v) :: es else','if l.same k then (l, w) :: es else','first entry kept instead of the last')
m('C161',F,'strReplace','if k = [] then v ++ s.flatMap (fun c => c :: v) else replaceAll k v 0 s','if k = [] then s else replaceAll v k 0 s','key and replacement swapped')
m('C161',F,'strReplace','v ++ s.flatMap (fun c => c :: v)','s','empty keys ignored')
m('C161',F,'replaceText','mapping.foldl (fun x kv => strReplace kv.1 kv.2 x) s','mapping.foldr (fun kv x => strReplace kv.1 kv.2 x) s','replacements in reverse order')
m('C161',F,'replaceText','mapping.foldl (fun x kv => strReplace kv.1 kv.2 x) s','(mapping.take 1).foldl (fun x kv => strReplace kv.1 kv.2 x) s','only the first key')
m('C161',F,'Val.replace','| .seq t xs => .seq t (replaceItems mapping xs)','| .seq t xs => .seq false (replaceItems mapping xs)','tuples become lists')
m('C161',F,'Val.replace','| .seq t xs => .seq t (replaceItems mapping xs)','| .seq t xs => .seq t xs','lists not searched')
m('C161',F,'replaceEntries','setEntry (k.replace mapping) (v.replace mapping) done','setEntry k (v.replace mapping) done','keys not replaced')
m('C161',F,'replaceEntries','setEntry (k.replace mapping) (v.replace mapping) done','setEntry (k.replace mapping) v done','values of dictionaries not replaced')
json.dump(L,open('/tmp/mut/m17.json','w'))
bad=[(x['id'],x['old'],open('/verif/lean/'+x['file']).read().count(x['old'])) for x in L]
print(len(L),[b for b in bad if b[2]!=1])
