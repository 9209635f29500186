import json
L=[]
def m(prop,file,d,old,new,claim,**k):
    L.append(dict(id='m8-%02d'%(len(L)+1),prop=prop,file='Verif/'+file,**{'def':d},old=old,new=new,claim=claim,**k))
F='Data/Load.lean'
m('C96',F,'closing',"decide (1 ≤ j ∧ r[j]? = some '}')","decide (0 ≤ j ∧ r[j]? = some '}')",'empty braces accepted')
m('C96',F,'closing',"(List.range r.length).reverse.find?","(List.range r.length).find?",'first closing brace is taken')
m('C96',F,'specifier',"(List.range s.length).reverse.findSome?","(List.range s.length).findSome?",'first opening brace is taken')
m('C96',F,'specifier',"if 1 ≤ k ∧ s[k]? = some '{'","if s[k]? = some '{'",'empty file name accepted')
m('C96',F,'parsePath',"| none => .error (.py .valueError)\n    | some n => .ok (f, some n)","| none => .ok (f, none)\n    | some n => .ok (f, some n)",'no integer: number ignored')
m('C96',F,'SpecFile.row','match sliceOne rows (n - 1) with','match sliceOne rows n with','row numbers begin at 0')
m('C96',F,'SpecFile.row','| p :: _ => .ok p\n      | [] => .error .indexError','| p :: _ => .ok p\n      | [] => (rows.head?.elim (.error .indexError) .ok)','row out of range gives the first')
m('C96',F,'SpecFile.row','else if f.hduclas4 then .error .valueError','else if false then .error .valueError','type II mark ignored')
m('C96',F,'SpecFile.row','if f.detchans.getD f.len ≠ f.len then .error .valueError\n    else','','DETCHANS not checked')
m('C96',F,'fileField','if f ∈ ["none".toList, "None".toList, "NONE".toList] then [] else f','if f ∈ ["none".toList, "NONE".toList] then [] else f','None is a file')
m('C96',F,'fileOr','if arg.getD [] ≠ [] then arg.getD [] else header','if header ≠ [] then header else arg.getD []','header wins over the argument')
m('C96',F,'loadArf','| none => .error .noFile\n    | some a => .ok (some a)','| none => .ok none\n    | some a => .ok (some a)','missing ancillary file ignored')
m(['C96','C97'],F,'Rmf.build','let mat ← applyArf mat arf','let mat ← applyArf mat none','ancillary response not applied')
m(['C96','C97'],F,'Rmf.build','readMatrix m.detchans m.tlmin m.rows','readMatrix m.detchans none m.rows','first channel of the matrix ignored')
m(['C96','C97'],F,'Rmf.build','Response.init grid m.emin m.emax','Response.init grid m.emax m.emin','channel edges swapped')
m('C96',F,'loadResponse','match exts (id.getD 1) with','match exts (id.getD 0) with','default matrix number 0')
m('C96',F,'loadBack','(fileOr a.back (fileField row.back)) a.backPoisson with','(fileOr a.back (fileField row.back)) a.specPoisson with','background read with the flag of the spectrum')
m('C96',F,'loadResp','(fileOr a.ancr (fileField row.ancr))','(fileField row.ancr)','ancr argument ignored')
m('C96',F,'loadResp','if fileOr a.resp (fileField row.resp) = [] then .error (.py .valueError)','if fileOr a.resp (fileField row.resp) = [] then .error .noFile','error for no response')
m('C96',F,'finish','let o ← Obs.make spec back resp a.ignoreBad','let o ← Obs.make spec none resp a.ignoreBad','background dropped')
m(['C96','C97'],F,'finish','let o ← Obs.make spec back resp a.ignoreBad','let o ← Obs.make spec back resp true','ignore_bad always true')
m('C96',F,'finish','let r ← o.group x.erange m scale preserve','let r ← o.group x.erange m none preserve','scale argument dropped')
m('C96',F,'finish','return ⟨name, o, { x with st := r.st }⟩','return ⟨name, o, x⟩','grouping asked for not applied')
m('C96',F,'loadData','if spec.counts.length ≠ resp.channelNumber then .error (.py .valueError)\n        else','','number of channels not checked')
m('C96',F,'loadData','match dataName a.name row.names with','match dataName none row.names with','name argument ignored')
m('C96',F,'loadSpectrum','match r.pha.read poisson with','match r.pha.read none with','poisson argument ignored')
F='Infer/Likelihood.lean'
m('C97',F,'FitData.sourceRate','.sum * nth d.areaScale j','.sum','area scale not applied')
m('C97',F,'FitData.sourceCounts','(d.sourceRate unfold j * d.exposure)','(d.sourceRate unfold j)','exposure not applied')
m('C97',F,'likelihood','normalLogProb (nth d.netCounts j) (nth μ j) (nth d.netErrors j)','normalLogProb (nth d.specCounts j) (nth μ j) (nth d.netErrors j)','chi2 on total counts')
m('C97',F,'likelihood','d.sourceRate unfold j * d.exposure + nth b.ratio j * nth b.counts j','d.sourceRate unfold j * d.exposure + nth b.counts j','pstat background not scaled')
m('C97',F,'likelihood','let off := js.map fun j => poissonLogProb (nth b.counts j) (nth bm j)','let off := js.map fun j => poissonLogProb (nth b.counts j) (nth b.ratio j * nth bm j)','wstat off term')
m('C97',F,'getLoglike','point.map List.sum, channels, channels.sum','point.map List.sum, channels, (point.map List.sum).headD 0','total of the first data set only')
m('C97',F,'deviance','l.group.map (-2 * ·), -2 * l.total','l.group.map (-2 * ·), - l.total','factor of the total')
F='Infer/EndToEndSpec.lean'
m('C97','Data/Construct.lean','setErange','','','placeholder')
L.pop()
m('C97','Data/Ogip.lean','photonGrid','match elo ++ [last] with','match elo with','last edge missing')
m('C97','Data/Ogip.lean','applyArf','row.map (· * a)) matrix arf','row.map (· + a)) matrix arf','area added')
m('C97','Data/Ogip.lean','applyArf','if arf.length ≠ matrix.length then .error .valueError\n    else','','length of ARF not checked')
m(['C97','C36'],'Models/Spectra.lean','powerlawIntegral','alpha ≠ 1','alpha ≠ 2','index one')
json.dump(L,open('/tmp/mut/m8.json','w'),indent=0)
print(len(L))
